import Verif.Model.BondGen
import Verif.Model.Overlap
import Mathlib.Algebra.Order.Archimedean.Real.Basic
/-!
Model of an evaluation of `OverlapCalculator` on a structure: the bond generator with the range set by
`configureBondGenerator`, the serial full-sum loop and the stored bonds (OverlapCalculator.cpp:425-446).
-/
namespace Verif.Geo
open Verif.BondGen Verif.Eval

/-- What an `addPairContribution` reads from the generator, in the order of the bonds (PQEvaluator.cpp:117-125). -/
def mapGen {A B : Type} (φ : A → B) (gen : Gen A) : Gen B := fun i sel => (gen i sel).map fun p => (p.1, φ p.2)

end Verif.Geo

namespace Verif.Overlap
open Verif.BondGen Verif.Eval Verif.Geo

/-- `distance()` and `r01()` as stored by `addPairContribution` (OverlapCalculator.cpp:437-443). -/
def ovBond (b : Bond) : Bnd ℝ := ⟨b.distance, b.r01.x, b.r01.y, b.r01.z⟩

/-- `getRmaxUsed` (OverlapCalculator.cpp:406-411). -/
noncomputable def rmaxUsed (s : Stru ℝ) (rmax : ℝ) : ℝ := min rmax (maxSeparation s)

/-- `mvalue` after `eval` with the default evaluator (PQEvaluator.cpp:89-153): `gen lo hi` is the generator of the structure with
the limits set by `configureBondGenerator` (OverlapCalculator.cpp:425-429); the calculator uses full sums
(OverlapCalculator.cpp:63-76). -/
noncomputable def evalStru (s : Stru ℝ) (rmin rmax : ℝ) (mask : ℕ → ℕ → Bool) (gen : ℝ → ℝ → Gen Bond) : List ℝ :=
  evalOverlap (basicTrace true (mapGen ovBond (gen rmin (rmaxUsed s rmax))) true mask s.cnt 0 1)

end Verif.Overlap
