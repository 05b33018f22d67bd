import Verif.Model.DoubleLattice
import Verif.Model.DoubleCmp
/-
`Lattice::fractional` and `ucvCartesian` (src/diffpy/srreal/Lattice.cpp) in rounded arithmetic, with `fl` as in Model/DoubleLattice.lean.  The inverse of
the base matrix (`R3::inverse`, R3linalg.cpp:62-82, an LU decomposition of GSL) is an arbitrary function `inv` of matrices.
-/
namespace Verif.Double

/-- `Lattice::fractional` (Lattice.cpp:194-199) with `mrecbase` (Lattice.cpp:92). -/
def fractionalF (fl : ℚ → ℚ) (inv : (Fin 3 → V3) → Fin 3 → V3) (L : LatF) (x : V3) : V3 := vecmatF fl x (inv L.base)

/-- `Lattice::ucvFractional` (Lattice.cpp:208-217). -/
noncomputable def ucvFractionalF (fl : ℚ → ℚ) (v : V3) : V3 := fun i => wrapF fl (v i)

/-- `Lattice::ucvCartesian` (Lattice.cpp:201-206). -/
noncomputable def ucvCartesianF (fl : ℚ → ℚ) (inv : (Fin 3 → V3) → Fin 3 → V3) (L : LatF) (x : V3) : V3 :=
  cartesianF fl L (ucvFractionalF fl (fractionalF fl inv L x))

end Verif.Double
