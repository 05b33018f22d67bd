import Verif.Model.DebyeHistory
import Verif.Model.Setters
/-
Model of the r-space output functions of a DebyePDFCalculator object over a history of calls (src/diffpy/srreal/DebyePDFCalculator.cpp): the
calculator of Model/DebyeHistory.lean with the transformation of Model/Debye.lean.  The lower Q limit of the PDF (`mqminpdf`), which
`setQmin` changes without a click (DebyePDFCalculator.cpp:125-132) and only `getPDF` reads, and the envelopes are arguments here.
-/
namespace Verif.DebyeHist
open Verif.Debye Verif.Setters Verif.PDFGrid

variable {C S : Type}

/-- `getPDFAtQmin(qmin)` (DebyePDFCalculator.cpp:292-319) on the result of `getF`; `d` holds the range parameters and the Q step. -/
noncomputable def pdfAtQmin (k : Cls C S) (d : C → D) (s : DC C S) (qmin : ℝ) : Option (List ℝ) :=
  (getF k s).bind fun f => getPDFAtQmin qmin (d s.h.cfg).q.qstep (d s.h.cfg).rmin (d s.h.cfg).rmax (d s.h.cfg).rstep f

/-- The r grid (DebyePDFCalculator.cpp:170-173). -/
noncomputable def gridOf (d : D) : List ℝ := rgrid d.rmin d.rmax d.rstep

/-- `getPDF()` (DebyePDFCalculator.cpp:98-104) with the product of the envelopes (PDFEnvelope.cpp:42-58). -/
noncomputable def getPDF (k : Cls C S) (d : C → D) (s : DC C S) (qminpdf : ℝ) (envelope : ℝ → ℝ) : Option (List ℝ) :=
  (pdfAtQmin k d s qminpdf).map fun g => List.zipWith (fun r y => y * envelope r) (gridOf (d s.h.cfg)) g

/-- `getRDFperR()` (DebyePDFCalculator.cpp:118-121). -/
noncomputable def getRDFperR (k : Cls C S) (d : C → D) (s : DC C S) : Option (List ℝ) := pdfAtQmin k d s 0

/-- `getRDF()` (DebyePDFCalculator.cpp:107-115). -/
noncomputable def getRDF (k : Cls C S) (d : C → D) (s : DC C S) : Option (List ℝ) :=
  (getRDFperR k d s).map fun g => List.zipWith (fun r y => r * y) (gridOf (d s.h.cfg)) g

end Verif.DebyeHist
