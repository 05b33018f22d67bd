import Verif.Model.Setters
import Verif.Model.BondGen
/-!
Model of an evaluation of `DebyePDFCalculator` on a structure and of `getF` afterwards (PairQuantity.cpp:61-82, PQEvaluator.cpp:89-153,
DebyePDFCalculator.cpp:266-278, BaseDebyeSum.cpp:77-90, :159-189).
-/
namespace Verif.Debye
open Verif.Eval Verif.Setters

/-- What `addPairContribution` reads from the generator (BaseDebyeSum.cpp:170-177): `distance()`, the width that the peak width model
gives for the bond, and `multiplicity()`, that of site 0 (BaseBondGenerator.cpp:156-159). -/
def readGen (mult : ℕ → ℕ) (width : ℕ → ℕ → BondGen.Bond → ℝ) (gen : Gen BondGen.Bond) : Gen Bond :=
  fun i sel => (gen i sel).map fun p => (p.1, ⟨p.2.distance, width i p.1 p.2, mult i⟩)

/-- The multiplicities of the sites. -/
def multOf (sites : List Site) (i : ℕ) : ℕ := (sites[i]?.map Site.mult).getD 0

/-- `mvalue` after `eval` with a complete evaluation in one process: `d` are the parameters after `resetValue`, `gen lo hi` is the
generator of the structure with the limits set by `configureBondGenerator` (DebyePDFCalculator.cpp:274-278); the calculator uses half
sums (PQEvaluator.cpp:100-125). -/
noncomputable def evalStru (lookup : String → ℝ → ℝ) (sites : List Site) (width : ℕ → ℕ → BondGen.Bond → ℝ) (mask : ℕ → ℕ → Bool)
    (gen : ℝ → ℝ → Gen BondGen.Bond) (d : D) : List ℝ :=
  value d.q (cacheOf d.q (sfPDF lookup sites) sites)
    (basicTrace true (readGen (multOf sites) width (gen d.rcalclo d.rcalchi)) false mask sites.length 0 1)

/-- `eval` (PairQuantity.cpp:61-66): `resetValue` fixes the range and the Q step for the structure (DebyePDFCalculator.cpp:266-271), whose
`extFromPeakTails` is `tails`; then the bonds are summed.  The new parameters and the value, or the state left by the exception. -/
noncomputable def eval (lookup : String → ℝ → ℝ) (sites : List Site) (width : ℕ → ℕ → BondGen.Bond → ℝ) (mask : ℕ → ℕ → Bool)
    (gen : ℝ → ℝ → Gen BondGen.Bond) (tails : ℝ → ℝ → ℝ) (d : D) : Except D (D × List ℝ) :=
  match dstep tails d .reset with
  | .ok d' => .ok (d', evalStru lookup sites width mask gen d')
  | .error d' => .error d'

/-- `getF()` after the evaluation (BaseDebyeSum.cpp:77-90): the averages and the total occupancy are those that `resetValue` stored. -/
noncomputable def getFStru (lookup : String → ℝ → ℝ) (sites : List Site) (d : D) (v : List ℝ) : Option (List ℝ) :=
  getF d.q (sfAverage d.q (cacheOf d.q (sfPDF lookup sites) sites) sites) (totalOccupancy sites) v

end Verif.Debye
