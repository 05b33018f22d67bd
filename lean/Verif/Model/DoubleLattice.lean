import Verif.Model.DoubleTrig
import Mathlib.Data.Fin.VecNotation
/-
`Lattice::setLatPar` and `cartesian`, `volume` (src/diffpy/srreal/Lattice.cpp) in rounded arithmetic: every operation of doubles is followed by
`fl`, the square root `sq` and the cosine `c` of the C library are arbitrary functions.  Overflow, NaN, infinities and the sign of zero are not
modelled.  Only the part of the lattice that the conversion to Cartesian coordinates, the volume and the metric tensor need is built.
-/
namespace Verif.Double

/-- A row vector or a point (R3linalg.hpp:48-75). -/
abbrev V3 := Fin 3 → ℚ

/-- The data of a lattice (Lattice.hpp:140-190) that are modelled here. -/
structure LatF where
  (a b c : ℚ)
  (ca cb cg sa sb sg : ℚ)
  (ar br cr : ℚ)
  (car cbr cgr sar sbr sgr : ℚ)
  base : Fin 3 → V3
  metrics : Fin 3 → V3

/-- `Lattice::volumeNormal` (Lattice.cpp:171-177). -/
def volumeNormalF (fl sq : ℚ → ℚ) (ca cb cg : ℚ) : ℚ :=
  sq (fl (fl (fl (fl (1 + fl (fl (fl (2 * ca) * cb) * cg)) - fl (ca * ca)) - fl (cb * cb)) - fl (cg * cg)))

/-- `mxvecproduct(u, M)` (R3linalg.hpp:260-268). -/
def vecmatF (fl : ℚ → ℚ) (u : V3) (M : Fin 3 → V3) : V3 :=
  fun j => fl (fl (fl (u 0 * M 0 j) + fl (u 1 * M 1 j)) + fl (u 2 * M 2 j))

/-- `R3::prod` of matrices by rows (Lattice.cpp:88); the sum starts from zero, which is exact. -/
def prodF (fl : ℚ → ℚ) (M N : Fin 3 → V3) : Fin 3 → V3 := fun i => vecmatF fl (M i) N

/-- `Lattice::updateStandardBase` (Lattice.cpp:295-309). -/
def stdBaseF (fl : ℚ → ℚ) (a b c ca cb sa ar cgr sgr : ℚ) : Fin 3 → V3 :=
  ![![fl (1 / ar), fl (fl (-cgr / sgr) / ar), fl (cb * a)], ![0, fl (b * sa), fl (b * ca)], ![0, 0, c]]

/-- `Lattice::updateMetrics` (Lattice.cpp:285-293). -/
def metricsF (fl : ℚ → ℚ) (a b c ca cb cg : ℚ) : Fin 3 → V3 :=
  ![![fl (a * a), fl (fl (a * b) * cg), fl (fl (a * c) * cb)],
    ![fl (fl (a * b) * cg), fl (b * b), fl (fl (b * c) * ca)],
    ![fl (fl (a * c) * cb), fl (fl (b * c) * ca), fl (c * c)]]

/-- The unit matrix, the rotation `mbaserot` of a lattice that was never given base vectors (Lattice.cpp:32-48). -/
def unitF : Fin 3 → V3 := ![![1, 0, 0], ![0, 1, 0], ![0, 0, 1]]

/-- `Lattice::setLatPar` (Lattice.cpp:50-92) with the rotation `rot`. -/
def setLatParF (fl sq cosl : ℚ → ℚ) (rot : Fin 3 → V3) (a b c alpha beta gamma : ℚ) : LatF :=
  let ca := cosdF fl cosl alpha
  let sa := sindF fl cosl alpha
  let cb := cosdF fl cosl beta
  let sb := sindF fl cosl beta
  let cg := cosdF fl cosl gamma
  let sg := sindF fl cosl gamma
  let vn := volumeNormalF fl sq ca cb cg
  let ar := fl (sa / fl (a * vn))
  let br := fl (sb / fl (b * vn))
  let cr := fl (sg / fl (c * vn))
  let car := fl (fl (fl (cb * cg) - ca) / fl (sb * sg))
  let cbr := fl (fl (fl (ca * cg) - cb) / fl (sa * sg))
  let cgr := fl (fl (fl (ca * cb) - cg) / fl (sa * sb))
  let sar := sq (fl (1 - fl (car * car)))
  let sbr := sq (fl (1 - fl (cbr * cbr)))
  let sgr := sq (fl (1 - fl (cgr * cgr)))
  { a, b, c, ca, cb, cg, sa, sb, sg, ar, br, cr, car, cbr, cgr, sar, sbr, sgr
    metrics := metricsF fl a b c ca cb cg
    base := prodF fl (stdBaseF fl a b c ca cb sa ar cgr sgr) rot }

/-- `Lattice::cartesian` (Lattice.cpp:187-192). -/
def cartesianF (fl : ℚ → ℚ) (L : LatF) (v : V3) : V3 := vecmatF fl v L.base

/-- `Lattice::volume` (Lattice.cpp:180-184). -/
def volumeF (fl sq : ℚ → ℚ) (L : LatF) : ℚ := fl (fl (fl (volumeNormalF fl sq L.ca L.cb L.cg * L.a) * L.b) * L.c)

end Verif.Double
