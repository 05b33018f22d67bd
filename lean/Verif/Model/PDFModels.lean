import Verif.Model.PDFHistory
import Verif.Model.StruGeom
import Verif.Model.CrystalMsd
import Verif.Model.Setters
/-
PDFCalculator with the peak width models and peak profiles that the library provides: what `addPairContribution` and `extFromPeakTails` ask from them
(src/diffpy/srreal/PDFCalculator.cpp with ConstantPeakWidth.cpp, DebyeWallerPeakWidth.cpp, JeongPeakWidth.cpp, GaussianProfile.cpp,
CroppedGaussianProfile.cpp).
-/
namespace Verif.PDFHist
open Verif.R3 Verif.Diff Verif.KindDiff Verif.Geo Verif.PDFGrid

/-- The peak width models: ConstantPeakWidth.cpp, DebyeWallerPeakWidth.cpp, JeongPeakWidth.cpp. -/
inductive PWM
  | constant (c : Peak.ConstW)
  | debyeWaller
  | jeong (j : Peak.Jeong)

/-- `calculate(bnds)` for a bond of length `r` with mean square displacement `m` (ConstantPeakWidth.cpp:98-101,
DebyeWallerPeakWidth.cpp:53-59, JeongPeakWidth.cpp:68-77). -/
noncomputable def PWM.calculate (w : PWM) (r m : ℝ) : ℝ :=
  match w with
  | .constant c => c.calculate r m
  | .debyeWaller => Peak.dwCalculate m
  | .jeong j => j.calculate r m

/-- `maxWidth(stru, rmin, rmax)` (ConstantPeakWidth.cpp:104-108, DebyeWallerPeakWidth.cpp:62-69, JeongPeakWidth.cpp:80-90). -/
noncomputable def PWM.maxWidth (w : PWM) (sites : List Peak.Site) (rmin rmax : ℝ) : ℝ :=
  match w with
  | .constant c => c.maxWidth sites rmin rmax
  | .debyeWaller => Peak.dwMaxWidth sites
  | .jeong j => j.maxWidth sites rmin rmax

/-- The peak profiles: GaussianProfile.cpp, CroppedGaussianProfile.cpp. -/
inductive PPF
  | gauss (g : Peak.Gauss)
  | cropped (c : Peak.Cropped)

/-- The profile as `addPairContribution` uses it (PDFCalculator.cpp:520-529). -/
noncomputable def PPF.prof : PPF → Prof ℝ
  | .gauss g => g.prof
  | .cropped c => c.prof

/-- `setPrecision` of the profile (GaussianProfile.cpp:86-93, CroppedGaussianProfile.cpp:74-84). -/
noncomputable def PPF.setPrecision (eps : ℝ) : PPF → PPF
  | .gauss g => .gauss (g.setPrecision eps)
  | .cropped c => .cropped (c.setPrecision eps)

/-- Clicks of the ticker of the profile (PeakProfile.cpp:44-48). -/
def PPF.clicks : PPF → ℕ
  | .gauss g => g.clicks
  | .cropped c => c.g.clicks

/-- `getPrecision` of the profile (PeakProfile.cpp:51-54). -/
def PPF.precision : PPF → ℝ
  | .gauss g => g.precision
  | .cropped c => c.g.precision

/-- `PeakProfile::createByType` for the two types of the library: objects as made by the constructors (GaussianProfile.cpp:35-39,
CroppedGaussianProfile.cpp:35-39). -/
noncomputable def PPF.byType : Bool → PPF
  | false => .gauss Peak.Gauss.new
  | true => .cropped Peak.Cropped.new

/-- `siteCartesianUij` and `siteAnisotropy` of an atom (AtomicStructureAdapter.cpp:142-153; not overridden in the derived classes). -/
noncomputable def peakSite (a : Atom) : Peak.Site := ⟨(siteOf a).uij, a.anisotropy⟩

/-- `siteAnisotropy(i)` (AtomicStructureAdapter.cpp:142-146). -/
def anisoOf (x : RStru) (i : ℕ) : Bool := (x.atoms[i]?.map fun a => a.anisotropy).getD false

/-- `siteCartesianUij(i)` with `siteAnisotropy(i)` (AtomicStructureAdapter.cpp:142-153). -/
noncomputable def peakSiteOf (x : RStru) (i : ℕ) : Peak.Site := (x.atoms[i]?.map peakSite).getD ⟨M3.one, false⟩

/-- `bnds.msd()` for a bond from site `i` to site `j` (BaseBondGenerator.cpp:186-208; `Ucartesian1` of crystals
CrystalStructureAdapter.cpp:305-308). -/
noncomputable def bondMsd (x : RStru) (i j : ℕ) (b : BondGen.Bond) : ℝ :=
  match x.kind with
  | .crystal L o => (crysOf x.atoms L o).msd (anisoOf x) i j b
  | _ => Peak.msd (peakSiteOf x i) (peakSiteOf x j) b.r01

/-- The configuration of a PDFCalculator (PDFCalculator.hpp, PairQuantity.hpp): numeric parameters, width model, profile, scattering factors of
the types (`getRadiationType` table) and masks (by sites and by atoms, see `PCfg`). -/
structure LCfg where
  p : Setters.P
  pwm : PWM
  ppf : PPF
  lookup : String → ℝ
  mask : ℕ → ℕ → Option Atom → Option Atom → Bool

/-- `mrmin`, `mrmax`, `mrstep`, `mmaxextension` (PDFCalculator.cpp:728-754). -/
def LCfg.par (c : LCfg) : Par ℝ := ⟨c.p.rmin, c.p.rmax, c.p.rstep, c.p.maxext⟩

/-- `extFromPeakTails()` (PDFCalculator.cpp:593-604) for the structure. -/
noncomputable def LCfg.tails (c : LCfg) (x : RStru) : ℝ :=
  Peak.extFromPeakTails c.ppf.prof.lo c.ppf.prof.hi (c.pwm.maxWidth (x.atoms.map peakSite) c.p.rmin c.p.rmax)

/-- The width that `addPairContribution` gets for a bond (PDFCalculator.cpp:518). -/
noncomputable def LCfg.bondWidth (c : LCfg) (x : RStru) (i j : ℕ) (b : BondGen.Bond) : ℝ := c.pwm.calculate b.distance (bondMsd x i j b)

/-- The profile after `setPeakProfileByType` (PDFCalculator.cpp:379-387): a new one with the precision of the last. -/
noncomputable def PPF.switchTo (f : PPF) (t : Bool) : PPF := (PPF.byType t).setPrecision f.precision

/-- The configuration calls: what they make of a configuration and whether a ticker that the calculator looks at clicks (PDFCalculator.cpp:105-114).
Setters of numeric parameters as in Model/Setters.lean, also when they throw; `setPeakWidthModel(ByType)` and setters of parameters of the width model
(PeakWidthModel.cpp:36-48, JeongPeakWidth.cpp:93-142, ConstantPeakWidth.cpp:118-122); `setPeakProfile` (PDFCalculator.cpp:371-376);
`setPeakProfileByType`, which keeps the precision (:379-387); `setPrecision` of the profile (PeakProfile.cpp:44-48); scattering factors and masks
(here always with a click); and calls that change nothing. -/
inductive Api : LCfg → LCfg → Bool → Prop
  | set (c : LCfg) (op : Setters.POp) (p' : Setters.P) (h : Setters.pstep c.p op = .ok p') : Api c { c with p := p' } (p'.clicks != c.p.clicks)
  | rejected (c : LCfg) (op : Setters.POp) (p' : Setters.P) (h : Setters.pstep c.p op = .error p') :
    Api c { c with p := p' } (p'.clicks != c.p.clicks)
  | width (c : LCfg) (w : PWM) : Api c { c with pwm := w } true
  | profile (c : LCfg) (f : PPF) : Api c { c with ppf := f } true
  | profileByType (c : LCfg) (t : Bool) : Api c { c with ppf := c.ppf.switchTo t } true
  | precision (c : LCfg) (eps : ℝ) :
    Api c { c with ppf := c.ppf.setPrecision eps } ((c.ppf.setPrecision eps).clicks != c.ppf.clicks)
  | factors (c : LCfg) (lookup : String → ℝ) : Api c { c with lookup := lookup } true
  | masks (c : LCfg) (mask : ℕ → ℕ → Option Atom → Option Atom → Bool) : Api c { c with mask := mask } true
  | same (c : LCfg) : Api c c false

end Verif.PDFHist
