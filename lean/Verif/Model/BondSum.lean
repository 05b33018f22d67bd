import Verif.Model.BondCalc
import Verif.Model.OverlapSum
/-!
Model of an evaluation of `BondCalculator` on a structure and of the queries of the result (BondCalculator.cpp:84-165, :209-251).
-/
namespace Verif.BondCalc
open Verif.BondGen Verif.Eval Verif.Geo Verif.R3

/-- `distance()` and `r01()` as read by `entryFrom` (BondCalculator.cpp:88-93). -/
def bcBond (b : Bond) : BData ℝ := ⟨b.distance, b.r01.x, b.r01.y, b.r01.z⟩

open Classical in
/-- The test of the cone filters on a bond in `addPairContribution` (BondCalculator.cpp:214-217). -/
noncomputable def conePass (s : Cones) (b : BData ℝ) : Bool := decide (bondPasses s ⟨b.r0, b.r1, b.r2⟩ b.distance)

/-- The arrays after `eval` with a complete evaluation, in one process (PairQuantity.cpp:61-66, PQEvaluator.cpp:96-128); `gen lo hi` is the
generator of the structure with the limits set by `PairQuantity::configureBondGenerator` (PairQuantity.cpp:356-360); the
calculator uses full sums (BondCalculator.cpp:102-108). -/
noncomputable def evalStru (fill : Entry ℝ) (rmin rmax : ℝ) (mask : ℕ → ℕ → Bool) (s : Cones) (cnt : ℕ) (gen : ℝ → ℝ → Gen Bond)
    (d : Data ℝ) : Data ℝ :=
  finishValue fill false ((basicTrace true (mapGen bcBond (gen rmin rmax)) true mask cnt 0 1).foldl
    (addPairContribution (conePass s)) (resetValue d))

/-- `distances()` (BondCalculator.cpp:112-119). -/
def distances (d : Data ℝ) : List ℝ := d.bonds.map Entry.distance

/-- The vector of an entry (BondCalculator.cpp:129). -/
def Entry.direction (e : Entry ℝ) : V3 := ⟨e.direction0, e.direction1, e.direction2⟩

/-- `directions()` (BondCalculator.cpp:122-133). -/
def directions (d : Data ℝ) : List V3 := d.bonds.map Entry.direction

/-- `sites0()` (BondCalculator.cpp:136-143). -/
def sites0 (d : Data ℝ) : List ℕ := d.bonds.map Entry.site0

/-- `sites1()` (BondCalculator.cpp:146-153). -/
def sites1 (d : Data ℝ) : List ℕ := d.bonds.map Entry.site1

end Verif.BondCalc
