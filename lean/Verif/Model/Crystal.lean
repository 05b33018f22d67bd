import Verif.Model.Periodic
/-
Model of src/diffpy/srreal/CrystalStructureAdapter.cpp over ℝ.  An atom is its position and
displacement tensor; the other members (type, occupancy, ...) are only copied.
-/
namespace Verif.Crystal
open Verif.R3 Verif.MathUtils Verif.Lattice Verif.Points Verif.BondGen Verif.Periodic Classical

/-- `SymOpRotTrans` (CrystalStructureAdapter.hpp). -/
structure SymOp where
  R : M3
  t : V3

/-- The members `xyz_cartn` and `uij_cartn` of `Atom`. -/
structure Site where
  xyz : V3
  uij : M3

/-- C `round`: nearest integer, halfway cases away from zero. -/
noncomputable def cRound (x : ℝ) : ℤ := if 0 ≤ x then ⌊x + 1 / 2⌋ else ⌈x - 1 / 2⌉

/-- `dxyz[k] -= round(dxyz[k])` for the three components (CrystalStructureAdapter.cpp:242-244). -/
noncomputable def wrapDiff (d : V3) : V3 :=
  ⟨d.x - (cRound d.x : ℝ), d.y - (cRound d.y : ℝ), d.z - (cRound d.z : ℝ)⟩

/-- The test of `findEqualPosition` (CrystalStructureAdapter.cpp:241-245). -/
def samePos (L : Lat) (eps : ℝ) (u v : V3) : Prop := L.norm (wrapDiff (V3.sub u v)) ≤ eps

/-- One entry of `eqsites`, `eqsumpos`, `eqduplicity` (CrystalStructureAdapter.cpp:159-161). -/
structure Acc where
  site : Site
  sum : V3
  cnt : Nat

/-- `findEqualPosition` (CrystalStructureAdapter.cpp:233-249); `none` is -1. -/
noncomputable def findEqualPosition (L : Lat) (eps : ℝ) (eqs : List Acc) (x : V3) : Option Nat :=
  eqs.findIdx? fun e => decide (samePos L eps e.site.xyz x)

/-- The image of the atom position under an operation (CrystalStructureAdapter.cpp:170-171). -/
def image (a0 : Site) (op : SymOp) : V3 := V3.add (M3.mulVec op.R a0.xyz) op.t

/-- The loop body of `expandLatticeAtom` (CrystalStructureAdapter.cpp:168-187). -/
noncomputable def expandStep (L : Lat) (eps : ℝ) (a0 : Site) (eqs : List Acc) (op : SymOp) : List Acc :=
  let x := image a0 op
  match findEqualPosition L eps eqs x with
  | some k => eqs.modify k fun e => { e with sum := V3.add e.sum (ucvFractional x), cnt := e.cnt + 1 }
  | none => eqs ++ [⟨⟨x, M3.mul op.R (M3.mul a0.uij (M3.trans op.R))⟩,
              V3.add V3.zero (ucvFractional x), 1⟩]

/-- The entries after the loop over `msymops`. -/
noncomputable def expandLoop (L : Lat) (eps : ℝ) (ops : List SymOp) (a0 : Site) : List Acc :=
  ops.foldl (expandStep L eps a0) []

/-- `expandLatticeAtom` (CrystalStructureAdapter.cpp:155-208), in fractional coordinates. -/
noncomputable def expandLatticeAtom (L : Lat) (eps : ℝ) (ops : List SymOp) (a0 : Site) : List Site :=
  let eqs := if ops.isEmpty then expandLoop L eps ops a0 ++ [⟨a0, a0.xyz, 1⟩] else expandLoop L eps ops a0
  eqs.map fun e => { e.site with xyz := V3.smul (1 / (e.cnt : ℝ)) e.sum }

/-- `PeriodicStructureAdapter::toCartesian` (PeriodicStructureAdapter.cpp:89-94). -/
def toCartesian (L : Lat) (s : Site) : Site := ⟨L.cartesian s.xyz, L.cartesianMatrix s.uij⟩
/-- `PeriodicStructureAdapter::toFractional` (PeriodicStructureAdapter.cpp:97-102). -/
def toFractional (L : Lat) (s : Site) : Site := ⟨L.fractional s.xyz, L.fractionalMatrix s.uij⟩

/-- The adapter: atoms in Cartesian coordinates, lattice, operations, precision and the cache. -/
structure Crys where
  atoms : List Site
  L : Lat
  ops : List SymOp
  eps : ℝ
  cached : Bool
  sym : List (List Site)

/-- The symmetry positions of one atom, in Cartesian coordinates
(CrystalStructureAdapter.cpp:214-227). -/
noncomputable def symOf (L : Lat) (eps : ℝ) (ops : List SymOp) (a : Site) : List Site :=
  (expandLatticeAtom L eps ops (toFractional L a)).map (toCartesian L)

/-- `updateSymmetryPositions` (CrystalStructureAdapter.cpp:211-229). -/
noncomputable def Crys.updateSymmetryPositions (c : Crys) : Crys :=
  { c with sym := c.atoms.map (symOf c.L c.eps c.ops), cached := true }

/-- `isSymmetryCached` (CrystalStructureAdapter.cpp:251-256): updates the flag. -/
def Crys.isSymmetryCached (c : Crys) : Crys :=
  { c with cached := c.cached && (c.sym.length == c.atoms.length) }

/-- The cache refresh at the start of `siteMultiplicity` and `getEquivalentAtoms`
(CrystalStructureAdapter.cpp:72, :145). -/
noncomputable def Crys.refresh (c : Crys) : Crys :=
  let c1 := c.isSymmetryCached
  if c1.cached then c1 else c1.updateSymmetryPositions

/-- `getEquivalentAtoms(idx)` (CrystalStructureAdapter.cpp:140-147). -/
noncomputable def Crys.getEquivalentAtoms (c : Crys) (idx : Nat) : Crys × List Site :=
  (c.refresh, c.refresh.sym.getD idx [])

/-- `siteMultiplicity(idx)` (CrystalStructureAdapter.cpp:70-75). -/
noncomputable def Crys.siteMultiplicity (c : Crys) (idx : Nat) : Nat :=
  (c.refresh.sym.getD idx []).length

/-- Calls on the adapter. -/
inductive Call
  /-- Non-const access to the atoms: `operator[]`, iterators, `append`, `erase`, ...
  (AtomicStructureAdapter.hpp); any new list of atoms. -/
  | setAtoms (as : List Site)
  /-- `setLatPar` (PeriodicStructureAdapter.cpp:74-79), any new lattice. -/
  | setLattice (L : Lat)
  /-- `addSymOp` (CrystalStructureAdapter.cpp:125-129). -/
  | addSymOp (op : SymOp)
  /-- `clearSymOps` (CrystalStructureAdapter.cpp:118-122). -/
  | clearSymOps
  /-- `setSymmetryPrecision` (CrystalStructureAdapter.cpp:97-103) with a positive value. -/
  | setPrecision (eps : ℝ)
  /-- `createBondGenerator` (CrystalStructureAdapter.cpp:61-67). -/
  | createBondGenerator
  /-- `siteMultiplicity` or `getEquivalentAtoms`. -/
  | query

/-- Effect of a call. -/
noncomputable def Crys.call (c : Crys) : Call → Crys
  | .setAtoms as => { c with atoms := as }
  | .setLattice L => { c with L := L }
  | .addSymOp op => { c with ops := c.ops ++ [op], cached := false }
  | .clearSymOps => { c with ops := [], cached := false }
  | .setPrecision e => { c with eps := e, cached := if e ≠ c.eps then false else c.cached }
  | .createBondGenerator => c.updateSymmetryPositions
  | .query => c.refresh

/-- `bonds` is what the loop over the crystal generator visits (CrystalStructureAdapter.cpp:280-362):
created by `createBondGenerator`, limits `rmin`, `rmax`. -/
def CrystalBonds (c : Crys) (rmin rmax : ℝ) (anchor : Nat) (sel : List Nat) (old : Cur)
    (bonds : List Bond) : Prop :=
  let sym := c.updateSymmetryPositions.sym
  let syms : Nat → List V3 := fun i => (sym.getD i []).map Site.xyz
  ∃ l, SphereVisits (rmin - c.L.ucMaxDiagonalLength) (rmax + c.L.ucMaxDiagonalLength) (latPar c.L) l ∧
    bonds = cryLoop ⟨(syms anchor).headD V3.zero, rmin, rmax⟩ syms
      (l.map fun t => c.L.cartesian (tripVec t)) sel old

end Verif.Crystal
