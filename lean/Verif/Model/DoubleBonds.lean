import Verif.Model.DoubleNorm
import Verif.Model.DoubleCmp
/-
The test of one pair of points by the bond generators (src/diffpy/srreal/BaseBondGenerator.cpp) and the translated points of the periodic generator
(src/diffpy/srreal/PeriodicStructureAdapter.cpp) in rounded arithmetic, with `fl` and `sq` as in Model/DoubleLattice.lean.
-/
namespace Verif.Double

/-- `BaseBondGenerator::updateDistance` (BaseBondGenerator.cpp:234-240): the norm is not calculated when a component exceeds `rmax` already. -/
def updateDistanceF (fl sq : ℚ → ℚ) (rmax : ℚ) (r0 r1 : V3) : ℚ :=
  let r01 : V3 := fun i => fl (r1 i - r0 i)
  if |r01 0| > rmax then |r01 0|
  else if |r01 1| > rmax then |r01 1|
  else if |r01 2| > rmax then |r01 2|
  else normF fl sq r01

/-- `BaseBondGenerator::bondOutOfRange` (BaseBondGenerator.cpp:255-260). -/
def bondOutOfRangeF (rmin rmax d : ℚ) : Prop := d < rmin ∨ d > rmax

/-- `BaseBondGenerator::atSelfPair` (BaseBondGenerator.cpp:263-267). -/
def atSelfPairF (fl : ℚ → ℚ) (d : ℚ) : Prop := epsEqF fl d 0 sqrtEpsF

/-- The pair of the points is not skipped by `advanceWhileInvalid` (BaseBondGenerator.cpp:244-251). -/
def bondKeptF (fl sq : ℚ → ℚ) (rmin rmax : ℚ) (r0 r1 : V3) : Prop :=
  ¬ bondOutOfRangeF rmin rmax (updateDistanceF fl sq rmax r0 r1) ∧ ¬ atSelfPairF fl (updateDistanceF fl sq rmax r0 r1)

/-- `PeriodicStructureBondGenerator::updater1` (PeriodicStructureAdapter.cpp:229-233) with `mrcsphere` (PeriodicStructureAdapter.cpp:196-203):
the point `r` of the cell moved by the cells `mno`. -/
def imageF (fl : ℚ → ℚ) (L : LatF) (mno : V3) (r : V3) : V3 := fun i => fl (cartesianF fl L mno i + r i)

end Verif.Double
