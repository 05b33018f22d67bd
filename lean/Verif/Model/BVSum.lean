import Verif.Model.BV
import Verif.Model.BondGen
import Verif.Model.Evaluator
/-!
Model of an evaluation of `BVSCalculator` on a structure: the bond generator with the range set by
`configureBondGenerator`, the serial half-sum loop and the contributions of the bonds (BVSCalculator.cpp:144-183).
-/
namespace Verif.BV
open Verif.BondGen Verif.Eval

/-- What `addPairContribution` reads from the generator (BVSCalculator.cpp:163-179): the sites and the distance. -/
def distGen (gen : Gen Bond) : Gen ℝ := fun i sel => (gen i sel).map fun p => (p.1, p.2.distance)

/-- `eval` with the default evaluator (PQEvaluator.cpp:89-153, half sum): `gen rmax` is the generator of the structure after
`configureBondGenerator` (BVSCalculator.cpp:156-159), which calls only `setRmax(getRmaxUsed())`; the lower limit stays
that of a new generator, zero (BaseBondGenerator.cpp:35). -/
noncomputable def evalSums (std : SetBV ℝ) (t : Table ℝ) (st : ℕ → Site) (svs : List (Str × Int)) (rmax eps : ℝ)
    (mask : ℕ → ℕ → Bool) (cnt : ℕ) (gen : ℝ → Gen Bond) : ℕ → ℝ :=
  evalBVS std t st (basicTrace true (distGen (gen (rmaxUsed std t svs rmax eps))) false mask cnt 0 1)

/-- The generator of a finite structure with atoms at `pos` (BaseBondGenerator.cpp:59-268), with any bond data left from
earlier use. -/
noncomputable def finiteGen (pos : ℕ → R3.V3) (old : ℕ → List ℕ → Cur) (rmax : ℝ) : Gen Bond :=
  fun i sel => (baseLoop ⟨pos i, 0, rmax⟩ pos sel (old i sel)).map fun b => (b.site1, b)

end Verif.BV
