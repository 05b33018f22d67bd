import Verif.Model.DoubleLattice
/-
Lengths and distances (src/diffpy/srreal/R3linalg.hpp) and `Lattice::setLatBase` (src/diffpy/srreal/Lattice.cpp) in rounded arithmetic, with `fl` and
`sq` as in Model/DoubleLattice.lean.
-/
namespace Verif.Double

/-- `R3::dot` (R3linalg.hpp:228-232). -/
def dotF (fl : ℚ → ℚ) (u v : V3) : ℚ := fl (fl (fl (u 0 * v 0) + fl (u 1 * v 1)) + fl (u 2 * v 2))

/-- `R3::norm` (R3linalg.hpp:210-214). -/
def normF (fl sq : ℚ → ℚ) (u : V3) : ℚ := sq (dotF fl u u)

/-- `R3::distance` (R3linalg.hpp:217-225). -/
def distanceF (fl sq : ℚ → ℚ) (u v : V3) : ℚ := normF fl sq (fun i => fl (u i - v i))

/-- `Lattice::setLatBase` (Lattice.cpp:94-168) for base vectors that the test of the determinant accepts (Lattice.cpp:103-111). -/
def setLatBaseF (fl sq acosl : ℚ → ℚ) (va vb vc : V3) : LatF × (Fin 3 → ℚ) :=
  let a := normF fl sq va
  let b := normF fl sq vb
  let c := normF fl sq vc
  let ca := fl (dotF fl vb vc / fl (b * c))
  let cb := fl (dotF fl va vc / fl (a * c))
  let cg := fl (dotF fl va vb / fl (a * b))
  let sa := sq (fl (1 - fl (ca * ca)))
  let sb := sq (fl (1 - fl (cb * cb)))
  let sg := sq (fl (1 - fl (cg * cg)))
  let angles := ![acosdF fl acosl ca, acosdF fl acosl cb, acosdF fl acosl cg]
  let vn := volumeNormalF fl sq ca cb cg
  let ar := fl (sa / fl (a * vn))
  let br := fl (sb / fl (b * vn))
  let cr := fl (sg / fl (c * vn))
  let car := fl (fl (fl (cb * cg) - ca) / fl (sb * sg))
  let cbr := fl (fl (fl (ca * cg) - cb) / fl (sa * sg))
  let cgr := fl (fl (fl (ca * cb) - cg) / fl (sa * sb))
  let sar := sq (fl (1 - fl (car * car)))
  let sbr := sq (fl (1 - fl (cbr * cbr)))
  let sgr := sq (fl (1 - fl (cgr * cgr)))
  ({ a, b, c, ca, cb, cg, sa, sb, sg, ar, br, cr, car, cbr, cgr, sar, sbr, sgr
     metrics := metricsF fl a b c ca cb cg
     base := ![va, vb, vc] }, angles)

end Verif.Double
