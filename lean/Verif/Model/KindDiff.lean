import Verif.Model.Diff
/-
Model of `diff` between structures of the three related classes: AtomicStructureAdapter,
PeriodicStructureAdapter (derived from it, PeriodicStructureAdapter.hpp:33) and
CrystalStructureAdapter (derived from PeriodicStructureAdapter, CrystalStructureAdapter.hpp:66).
-/
namespace Verif.KindDiff
open Verif.Diff

/-- The class of a structure object with its own data besides the atoms: `L` stands for the lattice
(compared by `operator!=`, PeriodicStructureAdapter.cpp:72), `O` for the symmetry operations together
with the symmetry precision (CrystalStructureAdapter.cpp:88-92). -/
inductive Kind (L O : Type)
  | atomic
  | periodic (lat : L)
  | crystal (lat : L) (ops : O)
deriving DecidableEq

/-- A structure object. -/
structure Stru (L O : Type) where
  kind : Kind L O
  atoms : List Atom

variable {L O : Type} [DecidableEq L] [DecidableEq O]

/-- `getLattice()` of a structure that is a PeriodicStructureAdapter. -/
def Kind.lattice? : Kind L O → Option L
  | .atomic => none
  | .periodic l => some l
  | .crystal l _ => some l

/-- The symmetry data of a structure that is a CrystalStructureAdapter. -/
def Kind.symops? : Kind L O → Option O
  | .crystal _ o => some o
  | _ => none

/-- `x.diff(y)` by the class of `x`; `same` is pointer equality.  The dynamic casts of `y`
succeed for objects of derived classes: to AtomicStructureAdapter always
(AtomicStructureAdapter.cpp:173-175), to PeriodicStructureAdapter for periodic and crystal
structures (PeriodicStructureAdapter.cpp:68-70), to CrystalStructureAdapter for crystal structures
(CrystalStructureAdapter.cpp:83-85). -/
def diff (s : Sorter) (same : Bool) (x y : Stru L O) : SD :=
  match x.kind with
  | .atomic => atomicDiff s same true x.atoms y.atoms
  | .periodic l =>
    periodicDiff s same y.kind.lattice?.isSome (decide (y.kind.lattice? = some l)) x.atoms y.atoms
  | .crystal l o =>
    crystalDiff s same y.kind.symops?.isSome (decide (y.kind.symops? = some o))
      (decide (y.kind.lattice? = some l)) x.atoms y.atoms

end Verif.KindDiff
