import Verif.Model.Crystal
import Mathlib.Analysis.SpecialFunctions.Trigonometric.Basic
/-
Conversion of ObjCryst crystals and molecules to structure adapters
(src/diffpy/srreal/ObjCrystStructureAdapter.cpp).  The ObjCryst objects are inputs: what their accessors return.
-/
namespace Verif.ObjCryst
open Verif.R3 Verif.Lattice
open Verif.Crystal (SymOp Crys)

/-- `ObjCryst::ScatteringPower`: `GetSymbol`, `IsIsotropic`, `GetBiso` and `GetBij` (1-based, upper triangle). -/
structure ScattPow where
  symbol : String
  isotropic : Bool
  biso : ℝ
  b11 : ℝ
  b22 : ℝ
  b33 : ℝ
  b12 : ℝ
  b13 : ℝ
  b23 : ℝ

/-- `getUij` (ObjCrystStructureAdapter.cpp:43-62). -/
noncomputable def getUij (sp : ScattPow) : M3 :=
  let k : ℝ := 1 / (8 * Real.pi * Real.pi)
  if sp.isotropic then ⟨⟨sp.biso * k, 0, 0⟩, ⟨0, sp.biso * k, 0⟩, ⟨0, 0, sp.biso * k⟩⟩
  else ⟨⟨sp.b11 * k, sp.b12 * k, sp.b13 * k⟩, ⟨sp.b12 * k, sp.b22 * k, sp.b23 * k⟩, ⟨sp.b13 * k, sp.b23 * k, sp.b33 * k⟩⟩

/-- `ObjCryst::SpaceGroup`: `GetSymmetryOperations`, `GetTranslationVectors`, `GetNbSymmetrics`, `GetInversionCenter`. -/
structure SpaceGrp where
  ops : List SymOp
  trans : List V3
  nbsym : Nat
  center : V3

/-- `rv[i].R = mx; rv[i].t = tr` (ObjCrystStructureAdapter.cpp:76-82). -/
def copyOps (ops : List SymOp) (rv : List SymOp) : List SymOp :=
  (List.range ops.length).foldl (fun rv i => match ops[i]? with | some op => rv.set i op | none => rv) rv

/-- The body of the inner loop, `rv[k] = rv[i]; rv[k].t += sgt` (ObjCrystStructureAdapter.cpp:94-97), in place. -/
def transStep (last : Nat) (sgt : V3) (nt : Nat) (rv : List SymOp) (i : Nat) : List SymOp :=
  match rv[i]? with
  | some op => rv.set (i + nt * last) ⟨op.R, V3.add op.t sgt⟩
  | none => rv

/-- The loops over the translation vectors (ObjCrystStructureAdapter.cpp:88-99). -/
def transLoop (last : Nat) (trans : List V3) (rv : List SymOp) : List SymOp :=
  (List.range trans.length).foldl (fun rv nt => match trans[nt]? with
    | some sgt => (List.range last).foldl (transStep last sgt nt) rv
    | none => rv) rv

/-- `rv[j].R = -1 * rv[i].R; rv[j].t = tinv - rv[i].t` (ObjCrystStructureAdapter.cpp:113-117). -/
def invStep (last : Nat) (tinv : V3) (rv : List SymOp) (i : Nat) : List SymOp :=
  match rv[i]? with
  | some op => rv.set (last + i)
      ⟨⟨V3.smul (-1) op.R.r0, V3.smul (-1) op.R.r1, V3.smul (-1) op.R.r2⟩, V3.sub tinv op.t⟩
  | none => rv

/-- `fetchSymmetryOperations` (ObjCrystStructureAdapter.cpp:65-122).  `d` stands for the indeterminate operations after
`resize`; the asserts are off in release builds. -/
def fetchSymmetryOperations (sg : SpaceGrp) (d : SymOp) : List SymOp :=
  let rv := List.replicate sg.nbsym d
  let rv := copyOps sg.ops rv
  let rv := transLoop sg.ops.length sg.trans rv
  let last := sg.ops.length * sg.trans.length
  if last < sg.nbsym then
    let tinv := V3.smul 2 sg.center
    (List.range last).foldl (invStep last tinv) rv
  else rv

/-- `ObjCryst::ScatteringComponent`: fractional coordinates, occupancy and scattering power (`none` for a dummy atom). -/
structure Component where
  x : ℝ
  y : ℝ
  z : ℝ
  occ : ℝ
  sp : Option ScattPow

/-- `ObjCryst::Crystal`: the lattice parameters (angles in radians), scattering components and space group. -/
structure Crystal where
  a : ℝ
  b : ℝ
  c : ℝ
  alpha : ℝ
  beta : ℝ
  gamma : ℝ
  components : List Component
  sg : SpaceGrp

/-- `srreal::Atom` (AtomicStructureAdapter.hpp). -/
structure Atom where
  atomtype : String
  xyz : V3
  occupancy : ℝ
  anisotropy : Bool
  uij : M3

/-- The lattice of the new adapter (ObjCrystStructureAdapter.cpp:135-142; default lattice in Lattice.cpp:34-38). -/
noncomputable def lattice (L0 : Lat) (x : Crystal) : Lat :=
  setLatPar (create L0 1 1 1 90 90 90) x.a x.b x.c (180 / Real.pi * x.alpha) (180 / Real.pi * x.beta) (180 / Real.pi * x.gamma)

/-- The loop over the components (ObjCrystStructureAdapter.cpp:150-168); `ai` is set in every iteration that appends it. -/
noncomputable def crystalAtoms (L : Lat) : List Component → List Atom
  | [] => []
  | sc :: rest => match sc.sp with
    | none => crystalAtoms L rest
    | some sp => ⟨sp.symbol, L.cartesian ⟨sc.x, sc.y, sc.z⟩, sc.occ, !sp.isotropic,
        if !sp.isotropic then L.cartesianMatrix (getUij sp) else getUij sp⟩ :: crystalAtoms L rest

/-- `createStructureAdapter(const ObjCryst::Crystal&)` (ObjCrystStructureAdapter.cpp:130-176); the default symmetry precision is
5e-5 (CrystalStructureAdapter.cpp:38). -/
noncomputable def createCrystal (L0 : Lat) (d : SymOp) (x : Crystal) : List Atom × Crys :=
  let L := lattice L0 x
  let atoms := crystalAtoms L x.components
  (atoms, Crys.updateSymmetryPositions
    ⟨atoms.map fun a => ⟨a.xyz, a.uij⟩, L, fetchSymmetryOperations x.sg d, 5 / 10 ^ 5, false, []⟩)

/-- `ObjCryst::MolAtom`; `sp` is `none` for a dummy atom. -/
structure MolAtom where
  x : ℝ
  y : ℝ
  z : ℝ
  occ : ℝ
  sp : Option ScattPow

/-- `createStructureAdapter(const ObjCryst::Molecule&)` (ObjCrystStructureAdapter.cpp:182-206). -/
noncomputable def createMolecule : List MolAtom → List Atom
  | [] => []
  | m :: rest => match m.sp with
    | none => createMolecule rest
    | some sp => ⟨sp.symbol, ⟨m.x, m.y, m.z⟩, m.occ, !sp.isotropic, getUij sp⟩ :: createMolecule rest

end Verif.ObjCryst
