import Mathlib.Data.Rat.Defs
import Mathlib.Algebra.Order.Ring.Unbundled.Rat
import Mathlib.Data.String.Basic
/-
Model of structure differences: src/diffpy/srreal/AtomicStructureAdapter.cpp (Atom comparison,
diff), StructureDifference.cpp, PeriodicStructureAdapter.cpp:64-75,
CrystalStructureAdapter.cpp:79-94.
-/
namespace Verif.Diff

/-- `R3::Matrix` (R3linalg.hpp:97-116), row major. -/
structure Mat where
  u1 : Rat
  u2 : Rat
  u3 : Rat
  u4 : Rat
  u5 : Rat
  u6 : Rat
  u7 : Rat
  u8 : Rat
  u9 : Rat
deriving DecidableEq, Repr

/-- `Atom` (AtomicStructureAdapter.hpp): type, Cartesian position, occupancy, anisotropy flag and
displacement tensor.  `double` is ℚ (no NaN). -/
structure Atom where
  atomtype : String
  x : Rat
  y : Rat
  z : Rat
  occupancy : Rat
  anisotropy : Bool
  u : Mat
deriving DecidableEq, Repr

/-- The components of `xyz_cartn` in iteration order. -/
def Atom.xyz (a : Atom) : List Rat := [a.x, a.y, a.z]

/-- The components of `uij_cartn.data()` in iteration order. -/
def Atom.uij (a : Atom) : List Rat :=
  [a.u.u1, a.u.u2, a.u.u3, a.u.u4, a.u.u5, a.u.u6, a.u.u7, a.u.u8, a.u.u9]

/-- The loops AtomicStructureAdapter.cpp:43-47 and :56-60: `some r` is `return r`, `none` is
falling through. -/
def cmpLoop : List Rat → List Rat → Option Bool
  | a :: as, b :: bs => if a < b then some true else if a > b then some false else cmpLoop as bs
  | _, _ => none

/-- `operator<` (AtomicStructureAdapter.cpp:37-62). -/
def Atom.lt (a b : Atom) : Bool :=
  if a.atomtype < b.atomtype then true
  else if a.atomtype > b.atomtype then false
  else match cmpLoop a.xyz b.xyz with
    | some r => r
    | none =>
      if a.occupancy < b.occupancy then true
      else if a.occupancy > b.occupancy then false
      else if a.anisotropy < b.anisotropy then true
      else if a.anisotropy > b.anisotropy then false
      else (cmpLoop a.uij b.uij).getD false

/-- `operator==` (AtomicStructureAdapter.cpp:65-75). -/
def Atom.beq (a b : Atom) : Bool :=
  decide (a.atomtype = b.atomtype) && decide (a.xyz = b.xyz) &&
    decide (a.occupancy = b.occupancy) && (a.anisotropy == b.anisotropy) && decide (a.uij = b.uij)

/-- `StructureDifference::Method` (StructureDifference.hpp). -/
inductive Method | none | sideBySide | sorted
deriving DecidableEq, Repr

/-- `StructureDifference` (StructureDifference.hpp): site counts of `stru0`, `stru1`, the index
lists and the method. -/
structure SD where
  n0 : Nat
  n1 : Nat
  pop0 : List Nat
  add1 : List Nat
  method : Method
deriving DecidableEq, Repr

/-- `StructureDifference::allowsfastupdate` (StructureDifference.cpp:59-64):
`|pop0| < (1 - sqrt(0.5)) * N0`, taken exactly (see `allowsFast_iff_real`). -/
def SD.allowsFast (d : SD) : Bool :=
  decide (d.n0 * d.n0 < 2 * ((d.n0 - d.pop0.length) * (d.n0 - d.pop0.length)))

/-- Constructor (StructureDifference.cpp:38-57) as called from `StructureAdapter::diff`;
`same` is `stru0 == stru1` (pointer equality). -/
def baseDiff (same : Bool) (n0 n1 : Nat) : SD :=
  if same then ⟨n0, n1, [], [], .sideBySide⟩
  else ⟨n0, n1, List.range n0, List.range n1, .none⟩

/-- The first loop of the side-by-side comparison (AtomicStructureAdapter.cpp:188-195), together
with the loops over the surplus sites (:196-203): `i` is the running index. -/
def sideLoop : Nat → List Atom → List Atom → List Nat × List Nat
  | i, a :: as, b :: bs =>
    let r := sideLoop (i + 1) as bs
    if !(a.beq b) then (i :: r.1, i :: r.2) else r
  | i, as, [] => (List.range' i as.length, [])
  | i, [], bs => ([], List.range' i bs.length)

/-- Atom pointer and index (AtomicStructureAdapter.cpp:158). -/
abbrev AtomIndex := Atom × Int

/-- `std::set_symmetric_difference` with `cmpatomindex` (AtomicStructureAdapter.cpp:226-228). -/
def symDiff : List AtomIndex → List AtomIndex → List AtomIndex
  | [], l => l
  | x :: xs, [] => x :: xs
  | x :: xs, y :: ys =>
    if x.1.lt y.1 then x :: symDiff xs (y :: ys)
    else if y.1.lt x.1 then y :: symDiff (x :: xs) ys
    else symDiff xs ys
termination_by l0 l1 => l0.length + l1.length

/-- Indexed atoms of the old structure (AtomicStructureAdapter.cpp:212-216): 0, 1, 2, ... -/
def index0 (l : List Atom) : List AtomIndex := l.zipIdx.map fun p => (p.1, (p.2 : Int))

/-- Indexed atoms of the new structure (AtomicStructureAdapter.cpp:219-223): -1, -2, ... -/
def index1 (l : List Atom) : List AtomIndex := l.zipIdx.map fun p => (p.1, -1 - (p.2 : Int))

/-- Split of the symmetric difference (AtomicStructureAdapter.cpp:230-234): entries `pop0` with a
non-negative index and `add1 = -1 * idx - 1` for the others. -/
def splitDiff (l : List AtomIndex) : List Nat × List Nat :=
  (l.filterMap fun p => if p.2 ≥ 0 then some p.2.toNat else none,
   l.filterMap fun p => if p.2 ≥ 0 then none else some (-1 * p.2 - 1).toNat)

/-- The two `std::sort` uses: `byAtom` (AtomicStructureAdapter.cpp:224-225) and `byIndex` (:237-238).
`std::sort` is not stable, so any functions that sort are allowed (see `SortSpec`). -/
structure Sorter where
  byAtom : List AtomIndex → List AtomIndex
  byIndex : List Nat → List Nat

/-- What `std::sort` promises: a permutation in which no later element is less than an earlier. -/
structure SortSpec (s : Sorter) : Prop where
  atom_perm : ∀ l, (s.byAtom l).Perm l
  atom_sorted : ∀ l, (s.byAtom l).Pairwise fun p q => q.1.lt p.1 = false
  index_perm : ∀ l, (s.byIndex l).Perm l
  index_sorted : ∀ l, (s.byIndex l).Pairwise (· ≤ ·)

/-- `AtomicStructureAdapter::diff` (AtomicStructureAdapter.cpp:167-241): `same` is pointer
equality of the two structures, `castOk` the success of the dynamic cast. -/
def atomicDiff (s : Sorter) (same castOk : Bool) (a0 a1 : List Atom) : SD :=
  let sd := baseDiff same a0.length a1.length
  if same then sd
  else if !castOk then sd
  else
    let r := sideLoop 0 a0 a1
    let sd1 : SD := ⟨a0.length, a1.length, r.1, r.2, .sideBySide⟩
    if sd1.allowsFast then sd1
    else
      let sym := symDiff (s.byAtom (index0 a0)) (s.byAtom (index1 a1))
      let p := splitDiff sym
      ⟨a0.length, a1.length, s.byIndex p.1, s.byIndex p.2, .sorted⟩

/-- `PeriodicStructureAdapter::diff` (PeriodicStructureAdapter.cpp:64-75); `sameLattice` is
`getLattice() == pother->getLattice()`. -/
def periodicDiff (s : Sorter) (same castOk sameLattice : Bool) (a0 a1 : List Atom) : SD :=
  let sd := baseDiff same a0.length a1.length
  if same then sd
  else if !castOk then sd
  else if !sameLattice then sd
  else atomicDiff s same castOk a0 a1

/-- `CrystalStructureAdapter::diff` (CrystalStructureAdapter.cpp:79-94); `sameSymmetry` is
equality of the symmetry precision and of the symmetry operations. -/
def crystalDiff (s : Sorter) (same castOk sameSymmetry sameLattice : Bool) (a0 a1 : List Atom) : SD :=
  let sd := baseDiff same a0.length a1.length
  if same then sd
  else if !castOk then sd
  else if !sameSymmetry then sd
  else periodicDiff s same castOk sameLattice a0 a1

end Verif.Diff
