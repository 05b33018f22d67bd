import Verif.Model.Double
/-
The comparisons with a tolerance (src/diffpy/mathutils.ipp) and the wrapping of coordinates into the unit cell (src/diffpy/srreal/Lattice.cpp)
in rounded arithmetic, with the `fl` of Model/Double.lean.  NaN and infinities are not modelled.
-/
namespace Verif.Double

section
variable {K : Type} [Field K] [LinearOrder K] [FloorRing K]

/-- `eps_eq` (mathutils.ipp:114-117): the difference is rounded. -/
def epsEqF (fl : K → K) (x y tol : K) : Prop := |fl (x - y)| ≤ tol

/-- `eps_gt` (mathutils.ipp:121-124): the sum is rounded. -/
def epsGtF (fl : K → K) (x y tol : K) : Prop := x > fl (y + tol)

/-- `eps_lt` (mathutils.ipp:128-131). -/
def epsLtF (fl : K → K) (x y tol : K) : Prop := x < fl (y - tol)

/-- The tolerance `SQRT_DOUBLE_EPS` (mathutils.hpp:34), the default of `eps_eq`. -/
def sqrtEpsF : K := 1 / 2 ^ 26

open Classical in
/-- One coordinate of `Lattice::ucvFractional` (Lattice.cpp:208-217) with `R3::floor` (R3linalg.cpp:202-209); `floor` of a double is a double, the difference is rounded. -/
noncomputable def wrapF (fl : K → K) (x : K) : K :=
  let r := fl (x - (⌊x⌋ : K))
  if epsEqF fl r 1 sqrtEpsF then 0 else r

end

end Verif.Double
