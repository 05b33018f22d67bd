import Verif.Model.KindDiff
import Verif.Model.Crystal
/-!
The real geometry of structure objects: coordinates of `Atom` (doubles, here rationals) as real vectors; the lattice, symmetry operations
and the symmetry precision of PeriodicStructureAdapter.hpp:54 and CrystalStructureAdapter.hpp:100-103.
-/
namespace Verif.Geo
open Verif.R3 Verif.Diff Verif.KindDiff Verif.Crystal Verif.Lattice

/-- The symmetry operations and the symmetry precision (CrystalStructureAdapter.hpp:100-103). -/
abbrev Sym := List SymOp × ℝ

/-- A structure object of one of the three classes. -/
abbrev RStru := KindDiff.Stru Lat Sym

noncomputable instance : DecidableEq Lat := Classical.decEq _
noncomputable instance : DecidableEq Sym := Classical.decEq _

/-- `xyz_cartn` (AtomicStructureAdapter.hpp:44). -/
noncomputable def atomPos (a : Atom) : V3 := ⟨a.x, a.y, a.z⟩

/-- `siteCartesianPosition(i)` (AtomicStructureAdapter.cpp:128-132). -/
noncomputable def posOf (a : List Atom) (i : ℕ) : V3 := ((a[i]?).map atomPos).getD V3.zero

/-- The members `xyz_cartn` and `uij_cartn` (AtomicStructureAdapter.hpp:44-47). -/
noncomputable def siteOf (a : Atom) : Site :=
  ⟨atomPos a, ⟨⟨a.u.u1, a.u.u2, a.u.u3⟩, ⟨a.u.u4, a.u.u5, a.u.u6⟩, ⟨a.u.u7, a.u.u8, a.u.u9⟩⟩⟩

/-- A crystal object whose symmetry positions are not cached yet (CrystalStructureAdapter.hpp:100-103). -/
noncomputable def crysOf (a : List Atom) (L : Lat) (o : Sym) : Crys := ⟨a.map siteOf, L, o.1, o.2, false, []⟩

end Verif.Geo
