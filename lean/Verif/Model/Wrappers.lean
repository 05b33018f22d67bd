import Verif.Model.BondGen
import Verif.Model.Diff
import Verif.Model.Evaluator
/-
Model of the structure interface, its two wrappers and the pair counter:
src/diffpy/srreal/StructureAdapter.{hpp,cpp}, NoMetaStructureAdapter.cpp,
NoSymmetryStructureAdapter.cpp, EmptyStructureAdapter.cpp, PairCounter.{hpp,cpp}.
-/
namespace Verif.Wrappers
open Verif.R3 Verif.BondGen Verif.Diff

/-- What a structure object answers (StructureAdapter.hpp:48-95): one field per virtual method.
`P` stands for the state of a calculator that `customPQConfig` may change; `gen rmin rmax i sel` is
the list of bonds visited by the generator from `createBondGenerator` set to the range, anchor
site and selected sites.  Simplification: answers for site indices out of range are arbitrary
values (the code may throw). -/
structure Iface (P : Type) where
  count : Nat
  atomType : Nat → String
  position : Nat → V3
  multiplicity : Nat → Int
  occupancy : Nat → ℝ
  anisotropy : Nat → Bool
  uij : Nat → Fin 3 → Fin 3 → ℝ
  density : ℝ
  custom : P → P
  gen : ℝ → ℝ → Nat → List Nat → List Bond

/-- A structure object in memory: `id` stands for its address.  `other` is an adapter of any class
but the two wrapper classes; a wrapper holds its `msrcstructure`
(NoMetaStructureAdapter.hpp:64, NoSymmetryStructureAdapter.hpp).  Simplification: wrappers made by
the default constructor, which hold a null pointer until they are loaded from an archive, are left
out. -/
inductive Adapter (P : Type)
  | other (id : Nat) (i : Iface P)
  | noMeta (id : Nat) (src : Adapter P)
  | noSym (id : Nat) (src : Adapter P)

variable {P : Type}

/-- The address of an object. -/
def Adapter.id : Adapter P → Nat
  | .other n _ => n
  | .noMeta n _ => n
  | .noSym n _ => n

/-- The interface of `EmptyStructureAdapter` (EmptyStructureAdapter.cpp:39-115); the methods that
throw for every index are given arbitrary values. -/
noncomputable def emptyIface (P : Type) : Iface P where
  count := 0
  atomType _ := ""
  position _ := ⟨0, 0, 0⟩
  multiplicity _ := 1
  occupancy _ := 1
  anisotropy _ := false
  uij _ _ _ := 0
  density := 0
  custom p := p
  gen rmin rmax _ sel := baseLoop ⟨⟨0, 0, 0⟩, rmin, rmax⟩ (fun _ => ⟨0, 0, 0⟩) sel
    ⟨⟨0, 0, 0⟩, ⟨0, 0, 0⟩, 0⟩

/-- `emptyStructureAdapter()` (EmptyStructureAdapter.cpp:119-124): the singleton, at address 0. -/
noncomputable def emptyAdapter (P : Type) : Adapter P := .other 0 (emptyIface P)

/-- Constructor `NoMetaStructureAdapter(srcstructure)` (NoMetaStructureAdapter.cpp:38-46) at the
address `id`; `none` is a null pointer. -/
noncomputable def newNoMeta (id : Nat) : Option (Adapter P) → Adapter P
  | some (.noMeta _ s) => .noMeta id s
  | some s => .noMeta id s
  | none => .noMeta id (emptyAdapter P)

/-- Constructor `NoSymmetryStructureAdapter(srcstructure)` (NoSymmetryStructureAdapter.cpp:40-48). -/
noncomputable def newNoSym (id : Nat) : Option (Adapter P) → Adapter P
  | some (.noSym _ s) => .noSym id s
  | some s => .noSym id s
  | none => .noSym id (emptyAdapter P)

/-- `nometa(stru)` (NoMetaStructureAdapter.cpp:152-158); `id` is the address of the new object if
one is made. -/
noncomputable def nometa (id : Nat) (stru : Option (Adapter P)) : Adapter P :=
  match stru with
  | some (.noMeta n s) => .noMeta n s
  | _ => newNoMeta id stru

/-- `nosymmetry(stru)` (NoSymmetryStructureAdapter.cpp:149-155). -/
noncomputable def nosymmetry (id : Nat) (stru : Option (Adapter P)) : Adapter P :=
  match stru with
  | some (.noSym n s) => .noSym n s
  | _ => newNoSym id stru

/-- `countSites()` (NoMetaStructureAdapter.cpp:65-68, NoSymmetryStructureAdapter.cpp:68-71). -/
def Adapter.countSites : Adapter P → Nat
  | .other _ i => i.count
  | .noMeta _ s => s.countSites
  | .noSym _ s => s.countSites

/-- `siteAtomType(idx)` (NoMetaStructureAdapter.cpp:77-80, NoSymmetryStructureAdapter.cpp:80-83). -/
def Adapter.siteAtomType : Adapter P → Nat → String
  | .other _ i => i.atomType
  | .noMeta _ s => s.siteAtomType
  | .noSym _ s => s.siteAtomType

/-- `siteCartesianPosition(idx)` (NoMetaStructureAdapter.cpp:83-87,
NoSymmetryStructureAdapter.cpp:86-90). -/
def Adapter.sitePosition : Adapter P → Nat → V3
  | .other _ i => i.position
  | .noMeta _ s => s.sitePosition
  | .noSym _ s => s.sitePosition

/-- `siteMultiplicity(idx)` (NoMetaStructureAdapter.cpp:90-93; inherited for NoSymmetry,
StructureAdapter.cpp:61-64). -/
def Adapter.siteMultiplicity : Adapter P → Nat → Int
  | .other _ i => i.multiplicity
  | .noMeta _ s => s.siteMultiplicity
  | .noSym _ _ => fun _ => 1

/-- `siteOccupancy(idx)` (NoMetaStructureAdapter.cpp:96-99, NoSymmetryStructureAdapter.cpp:93-96). -/
def Adapter.siteOccupancy : Adapter P → Nat → ℝ
  | .other _ i => i.occupancy
  | .noMeta _ s => s.siteOccupancy
  | .noSym _ s => s.siteOccupancy

/-- `siteAnisotropy(idx)` (NoMetaStructureAdapter.cpp:102-105,
NoSymmetryStructureAdapter.cpp:99-102). -/
def Adapter.siteAnisotropy : Adapter P → Nat → Bool
  | .other _ i => i.anisotropy
  | .noMeta _ s => s.siteAnisotropy
  | .noSym _ s => s.siteAnisotropy

/-- `siteCartesianUij(idx)` (NoMetaStructureAdapter.cpp:108-111,
NoSymmetryStructureAdapter.cpp:105-108). -/
def Adapter.siteUij : Adapter P → Nat → Fin 3 → Fin 3 → ℝ
  | .other _ i => i.uij
  | .noMeta _ s => s.siteUij
  | .noSym _ s => s.siteUij

/-- `numberDensity()` (NoMetaStructureAdapter.cpp:71-74, NoSymmetryStructureAdapter.cpp:74-77). -/
def Adapter.numberDensity : Adapter P → ℝ
  | .other _ i => i.density
  | .noMeta _ s => s.numberDensity
  | .noSym _ _ => 0

/-- `customPQConfig(pq)` (NoMetaStructureAdapter.cpp:114-117, NoSymmetryStructureAdapter.cpp:111-114). -/
def Adapter.customPQConfig : Adapter P → P → P
  | .other _ i => i.custom
  | .noMeta _ _ => fun p => p
  | .noSym _ s => s.customPQConfig

/-- The bonds visited by the generator from `createBondGenerator()`
(NoMetaStructureAdapter.cpp:58-62, NoSymmetryStructureAdapter.cpp:61-65): NoSymmetry makes a
`BaseBondGenerator` for itself. -/
noncomputable def Adapter.bonds (rmin rmax : ℝ) : Adapter P → Nat → List Nat → List Bond
  | .other _ i => i.gen rmin rmax
  | .noMeta _ s => s.bonds rmin rmax
  | .noSym _ s => fun i0 sel => baseLoop ⟨s.sitePosition i0, rmin, rmax⟩ s.sitePosition sel
      ⟨⟨0, 0, 0⟩, ⟨0, 0, 0⟩, 0⟩

/-- `StructureAdapter::totalOccupancy` (StructureAdapter.cpp:36-45), the loop from site `i` on with
`n` sites left. -/
noncomputable def occLoop (occ : Nat → ℝ) (mult : Nat → Int) : Nat → Nat → ℝ → ℝ
  | _, 0, acc => acc
  | i, n + 1, acc => occLoop occ mult (i + 1) n (acc + occ i * mult i)

/-- `totalOccupancy()` (StructureAdapter.cpp:36-45), not virtual. -/
noncomputable def Adapter.totalOccupancy (a : Adapter P) : ℝ :=
  occLoop a.siteOccupancy a.siteMultiplicity 0 a.countSites 0

/-- `PeriodicStructureAdapter::numberDensity` (PeriodicStructureAdapter.cpp:55-60) for a cell of the
given volume. -/
noncomputable def periodicDensity (total volume : ℝ) : ℝ := total / volume

/-- `clone()` (NoMetaStructureAdapter.cpp:50-55, NoSymmetryStructureAdapter.cpp:52-58); new objects
get the addresses `next`, `next + 1`, ...  An adapter of another class returns a copy of itself,
the empty structure returns itself (EmptyStructureAdapter.cpp:45-50). -/
def Adapter.clone : Adapter P → Nat → Adapter P × Nat
  | .other id i, next => if id = 0 then (.other id i, next) else (.other next i, next + 1)
  | .noMeta _ s, next => let r := s.clone (next + 1); (.noMeta next r.1, r.2)
  | .noSym _ s, next => let r := s.clone (next + 1); (.noSym next r.1, r.2)

/-- `a.diff(b)` (NoMetaStructureAdapter.cpp:120-134, NoSymmetryStructureAdapter.cpp:117-131);
`dOther` is the comparison of two objects at different addresses that are not wrappers, and an object
compared with one of an unrelated class gives the base-class difference
(AtomicStructureAdapter.cpp:171-175). -/
def Adapter.diff (dOther : Iface P → Iface P → SD) : Adapter P → Adapter P → SD
  | .other n i, b =>
    if n = b.id then baseDiff true i.count b.countSites
    else
      match b with
      | .other _ j => dOther i j
      | _ => baseDiff false i.count b.countSites
  | .noMeta n s, b =>
    if n = b.id then baseDiff true s.countSites b.countSites
    else
      match b with
      | .noMeta _ t => { s.diff dOther t with n0 := s.countSites, n1 := t.countSites }
      | _ => baseDiff false s.countSites b.countSites
  | .noSym n s, b =>
    if n = b.id then baseDiff true s.countSites b.countSites
    else
      match b with
      | .noSym _ t => { s.diff dOther t with n0 := s.countSites, n1 := t.countSites }
      | _ => baseDiff false s.countSites b.countSites

/-! ### Pair counter -/

/-- C++ conversion `int(x)`: truncation toward zero. -/
noncomputable def toInt (x : ℝ) : Int := if 0 ≤ x then ⌊x⌋ else ⌈x⌉

/-- `PairCounter::addPairContribution` (PairCounter.cpp:34-38) over the calls of a trace, starting
from the value `v`. -/
noncomputable def countLoop {B : Type} (tr : List (Verif.Eval.Contrib B)) (v : ℝ) : ℝ :=
  tr.foldl (fun v t => v + (t.scale : ℝ) / 2) v

/-- `PairCounter::operator()` (PairCounter.hpp:46-52) for the serial evaluator and the bonds of the
generator: `resetValue` sets the one-element value to zero (PairQuantity.cpp:348-352). -/
noncomputable def pairCount {B : Type} (rule : Bool) (gen : Verif.Eval.Gen B)
    (use : Nat → Nat → Bool) (cnt : Nat) : Int :=
  toInt (countLoop (Verif.Eval.basicTrace rule gen false use cnt 0 1) 0)

/-- The same after a parallel run: the values of the `ncpu` jobs are added by
`mergeParallelData` (PairQuantity.cpp:96-104, :362-376) and read from `value().front()`. -/
noncomputable def pairCountParallel {B : Type} (rule : Bool) (gen : Verif.Eval.Gen B)
    (use : Nat → Nat → Bool) (cnt ncpu : Nat) : Int :=
  toInt ((List.range ncpu).foldl (fun (acc : ℝ) (k : Nat) =>
    acc + countLoop (Verif.Eval.basicTrace rule gen false use cnt (k : Int) (ncpu : Int)) 0) 0)

/-- The loop bonds of the base generator in the form the evaluator uses; range of a new counter:
rmin 0 (PairQuantity.cpp:41), rmax 1000 (PairCounter.cpp:29). -/
noncomputable def counterGen (pos : Nat → V3) (rmin rmax : ℝ) : Verif.Eval.Gen Bond :=
  fun i sel => (baseLoop ⟨pos i, rmin, rmax⟩ pos sel ⟨⟨0, 0, 0⟩, ⟨0, 0, 0⟩, 0⟩).map fun b => (b.site1, b)

end Verif.Wrappers
