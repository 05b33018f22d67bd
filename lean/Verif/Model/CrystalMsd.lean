import Verif.Model.Crystal
import Verif.Model.PeakShape
/-
Displacements seen by the crystal bond generator (src/diffpy/srreal/CrystalStructureAdapter.cpp,
src/diffpy/srreal/BaseBondGenerator.cpp).
-/
namespace Verif.Crystal
open Verif.R3 Verif.Lattice Verif.Points Verif.BondGen Verif.Periodic Classical

/-- `Ucartesian0()` with anchor `i`: `siteCartesianUij(site0())`, the tensor of the atom of the asymmetric unit
(BaseBondGenerator.cpp:186-189, AtomicStructureAdapter.cpp:149-153; not overridden for crystals). -/
def Crys.ucartesian0 (c : Crys) (i : Nat) : M3 := (c.atoms.map Site.uij).getD i M3.one

/-- `Ucartesian1()` for a bond that ends at `x` (CrystalStructureAdapter.cpp:305-308): the generator keeps a pointer to
the tensor of the equivalent atom whose translation is `x` (:346-352); here the atom is found by its position, which is
the same because equivalent atoms do not differ by lattice translations (`ucartesian1_spec`). -/
noncomputable def Crys.ucartesian1 (c : Crys) (j : Nat) (x : V3) : M3 :=
  (((c.atoms.map (symOf c.L c.eps c.ops)).getD j []).find? fun s =>
    decide (∃ t : ℤ × ℤ × ℤ, x = V3.add s.xyz (c.L.cartesian (tripVec t)))).elim M3.one Site.uij

/-- `BaseBondGenerator::msd()` (BaseBondGenerator.cpp:198-208) for a bond of the crystal generator; `an` is
`siteAnisotropy`. -/
noncomputable def Crys.msd (c : Crys) (an : Nat → Bool) (i j : Nat) (b : Bond) : ℝ :=
  Peak.meanSquareDisplacement (c.ucartesian0 i) b.r01 (an i) +
    Peak.meanSquareDisplacement (c.ucartesian1 j b.r1) b.r01 (an j)

end Verif.Crystal
