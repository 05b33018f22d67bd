import Verif.Model.Points
/-
Model of the parts of src/diffpy/srreal/PeriodicStructureAdapter.cpp that combine the lattice, the
lattice-point iterator and the bond generator.
-/
namespace Verif.Periodic
open Verif.R3 Verif.MathUtils Verif.Lattice Verif.Points Verif.BondGen Classical

/-- `PointsInSphere(rmin, rmax, L)` (PointsInSphere.hpp:221-229) reads the six cell parameters. -/
noncomputable def latPar (L : Lat) : LatPar := LatPar.create L.a L.b L.c L.alpha L.beta L.gamma

/-- `mno()` as a vector of lattice coordinates. -/
def tripVec (t : ℤ × ℤ × ℤ) : V3 := ⟨(t.1 : ℝ), (t.2.1 : ℝ), (t.2.2 : ℝ)⟩

/-- The generator's limits and the limits used to build its `msphere`, if any
(PeriodicStructureAdapter.hpp; BaseBondGenerator.hpp). -/
structure PGen where
  rmin : ℝ
  rmax : ℝ
  sphere : Option (ℝ × ℝ)

/-- `PeriodicStructureBondGenerator::setRmin` (PeriodicStructureAdapter.cpp:180-185). -/
noncomputable def PGen.setRmin (g : PGen) (r : ℝ) : PGen :=
  { g with rmin := r, sphere := if g.rmin ≠ r then none else g.sphere }

/-- `PeriodicStructureBondGenerator::setRmax` (PeriodicStructureAdapter.cpp:188-193). -/
noncomputable def PGen.setRmax (g : PGen) (r : ℝ) : PGen :=
  { g with rmax := r, sphere := if g.rmax ≠ r then none else g.sphere }

/-- The sphere part of `PeriodicStructureBondGenerator::rewind`
(PeriodicStructureAdapter.cpp:154-169). -/
noncomputable def PGen.rewind (L : Lat) (g : PGen) : PGen :=
  match g.sphere with
  | some _ => g
  | none => { g with sphere := some (g.rmin - L.ucMaxDiagonalLength, g.rmax + L.ucMaxDiagonalLength) }

/-- Calls that configure the generator. -/
inductive PCall
  | setRmin (r : ℝ)
  | setRmax (r : ℝ)
  | rewind

/-- One call. -/
noncomputable def PGen.call (L : Lat) (g : PGen) : PCall → PGen
  | .setRmin r => g.setRmin r
  | .setRmax r => g.setRmax r
  | .rewind => g.rewind L

/-- `bonds` is what the loop `for (g.rewind(); !g.finished(); g.next())` over the periodic
generator `g` visits (PeriodicStructureAdapter.cpp:137-233), for atoms at the Cartesian positions
`xyz`, anchor site `anchor` and selected sites `sel`; `old` is the bond data left from before. -/
def PeriodicBonds (L : Lat) (xyz : Nat → V3) (g : PGen) (anchor : Nat) (sel : List Nat) (old : Cur)
    (bonds : List Bond) : Prop :=
  ∃ lo hi l, (g.rewind L).sphere = some (lo, hi) ∧ SphereVisits lo hi (latPar L) l ∧
    bonds = perLoop ⟨L.ucvCartesian (xyz anchor), g.rmin, g.rmax⟩ (fun i => L.ucvCartesian (xyz i))
      (l.map fun t => L.cartesian (tripVec t)) sel old

end Verif.Periodic
