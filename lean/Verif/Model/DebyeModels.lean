import Verif.Model.DebyeHistory
import Verif.Model.PDFModels
/-
DebyePDFCalculator with the peak width models that the library provides: what `addPairContribution` and `extFromPeakTails` ask from them
(src/diffpy/srreal/DebyePDFCalculator.cpp, BaseDebyeSum.cpp with ConstantPeakWidth.cpp, DebyeWallerPeakWidth.cpp, JeongPeakWidth.cpp,
GaussianProfile.cpp).
-/
namespace Verif.DebyeHist
open Verif.R3 Verif.Diff Verif.KindDiff Verif.Geo Verif.PDFHist Verif.Setters

/-- `DEFAULT_PEAKPRECISION` (PDFUtils.hpp:40). -/
noncomputable def peakPrecision : ℝ := 3.33e-6

/-- The configuration of a DebyePDFCalculator (DebyePDFCalculator.hpp, BaseDebyeSum.hpp, PairQuantity.hpp): numeric parameters, width model,
scattering factors of the types at Q, and masks (by sites and by atoms). -/
structure DLCfg where
  d : D
  pwm : PWM
  lookup : String → ℝ → ℝ
  mask : ℕ → ℕ → Option Atom → Option Atom → Bool

/-- `extFromPeakTails()` (DebyePDFCalculator.cpp:363-374) for the structure, by `rmin` and `rmax`. -/
noncomputable def DLCfg.tails (c : DLCfg) (x : RStru) (rmin rmax : ℝ) : ℝ :=
  (Peak.Gauss.new.setPrecision peakPrecision).hi (c.pwm.maxWidth (x.atoms.map peakSite) rmin rmax)

/-- The width that `addPairContribution` gets for a bond (BaseDebyeSum.cpp:167-175). -/
noncomputable def DLCfg.bondWidth (c : DLCfg) (x : RStru) (i j : ℕ) (b : BondGen.Bond) : ℝ := c.pwm.calculate b.distance (bondMsd x i j b)

/-- The configuration calls: what they make of a configuration and whether a ticker that the calculator looks at clicks
(DebyePDFCalculator.cpp:87-94, BaseDebyeSum.cpp:69-73).  Setters of numeric parameters as in Model/Setters.lean, while `x` is the current structure,
also when they throw; `setPeakWidthModel(ByType)` and setters of parameters of the width model (PeakWidthModel.cpp:36-48, JeongPeakWidth.cpp:93-142,
ConstantPeakWidth.cpp:118-122); scattering factors and masks (here always with a click); and calls that change nothing. -/
inductive DApi : DLCfg → DLCfg → Bool → Prop
  | set (c : DLCfg) (x : RStru) (op : DOp) (h : op ≠ .reset) :
    DApi c { c with d := after (dstep (c.tails x) c.d op) } ((after (dstep (c.tails x) c.d op)).clicks != c.d.clicks)
  | width (c : DLCfg) (w : PWM) : DApi c { c with pwm := w } true
  | factors (c : DLCfg) (lookup : String → ℝ → ℝ) : DApi c { c with lookup := lookup } true
  | masks (c : DLCfg) (mask : ℕ → ℕ → Option Atom → Option Atom → Bool) : DApi c { c with mask := mask } true
  | same (c : DLCfg) : DApi c c false

end Verif.DebyeHist
