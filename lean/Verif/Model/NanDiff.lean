import Verif.Model.Diff
/-!
Model of the structure difference when coordinates may be "not a number" (AtomicStructureAdapter.cpp:37-75, 167-241).
A `double` is `some q` or `none` for NaN; every comparison with NaN is false.
-/
namespace Verif.NanDiff
open Verif.Diff

/-- A `double` that may be NaN. -/
abbrev Num := Option Rat

/-- `<` of two doubles (used at AtomicStructureAdapter.cpp:45-58; `a > b` is `nlt b a`). -/
def nlt : Num → Num → Bool
  | some a, some b => decide (a < b)
  | _, _ => false

/-- `==` of two doubles (used by `std::equal`, R3linalg.hpp:165-169, :180-185, and AtomicStructureAdapter.cpp:70). -/
def neq : Num → Num → Bool
  | some a, some b => decide (a = b)
  | _, _ => false

/-- `Atom` (AtomicStructureAdapter.hpp) with coordinates, occupancy and displacement tensor that may be NaN; the
tensor is the list of its nine entries in row order. -/
structure NAtom where
  atomtype : String
  x : Num
  y : Num
  z : Num
  occupancy : Num
  anisotropy : Bool
  u : List Num
deriving DecidableEq, Repr

/-- The components of `xyz_cartn` in iteration order (AtomicStructureAdapter.cpp:41-42). -/
def NAtom.xyz (a : NAtom) : List Num := [a.x, a.y, a.z]

/-- The loops AtomicStructureAdapter.cpp:43-47 and :56-60. -/
def ncmpLoop : List Num → List Num → Option Bool
  | a :: as, b :: bs => if nlt a b then some true else if nlt b a then some false else ncmpLoop as bs
  | _, _ => none

/-- `std::equal` (R3linalg.hpp:167, :183). -/
def nequal : List Num → List Num → Bool
  | a :: as, b :: bs => neq a b && nequal as bs
  | [], [] => true
  | _, _ => false

/-- `operator<` (AtomicStructureAdapter.cpp:37-62). -/
def NAtom.lt (a b : NAtom) : Bool :=
  if a.atomtype < b.atomtype then true
  else if a.atomtype > b.atomtype then false
  else match ncmpLoop a.xyz b.xyz with
    | some r => r
    | none =>
      if nlt a.occupancy b.occupancy then true
      else if nlt b.occupancy a.occupancy then false
      else if a.anisotropy < b.anisotropy then true
      else if a.anisotropy > b.anisotropy then false
      else (ncmpLoop a.u b.u).getD false

/-- `operator==` of two different objects (AtomicStructureAdapter.cpp:65-75). -/
def NAtom.beq (a b : NAtom) : Bool :=
  decide (a.atomtype = b.atomtype) && nequal a.xyz b.xyz &&
    neq a.occupancy b.occupancy && (a.anisotropy == b.anisotropy) && nequal a.u b.u

/-- The loops of the side-by-side comparison (AtomicStructureAdapter.cpp:188-203). -/
def nsideLoop : Nat → List NAtom → List NAtom → List Nat × List Nat
  | i, a :: as, b :: bs =>
    let r := nsideLoop (i + 1) as bs
    if !(a.beq b) then (i :: r.1, i :: r.2) else r
  | i, as, [] => (List.range' i as.length, [])
  | i, [], bs => ([], List.range' i bs.length)

/-- Atom pointer and index (AtomicStructureAdapter.cpp:158). -/
abbrev NAtomIndex := NAtom × Int

/-- `std::set_symmetric_difference` with `cmpatomindex` (AtomicStructureAdapter.cpp:226-228). -/
def nsymDiff : List NAtomIndex → List NAtomIndex → List NAtomIndex
  | [], l => l
  | x :: xs, [] => x :: xs
  | x :: xs, y :: ys =>
    if x.1.lt y.1 then x :: nsymDiff xs (y :: ys)
    else if y.1.lt x.1 then y :: nsymDiff (x :: xs) ys
    else nsymDiff xs ys
termination_by l0 l1 => l0.length + l1.length

/-- Indexed atoms of the old structure (AtomicStructureAdapter.cpp:212-216). -/
def nindex0 (l : List NAtom) : List NAtomIndex := l.zipIdx.map fun p => (p.1, (p.2 : Int))

/-- Indexed atoms of the new structure (AtomicStructureAdapter.cpp:219-223). -/
def nindex1 (l : List NAtom) : List NAtomIndex := l.zipIdx.map fun p => (p.1, -1 - (p.2 : Int))

/-- Split of the symmetric difference (AtomicStructureAdapter.cpp:230-234). -/
def nsplitDiff (l : List NAtomIndex) : List Nat × List Nat :=
  (l.filterMap fun p => if p.2 ≥ 0 then some p.2.toNat else none,
   l.filterMap fun p => if p.2 ≥ 0 then none else some (-1 * p.2 - 1).toNat)

/-- The two `std::sort` uses (AtomicStructureAdapter.cpp:224-225, :237-238). -/
structure NSorter where
  byAtom : List NAtomIndex → List NAtomIndex
  byIndex : List Nat → List Nat

/-- `AtomicStructureAdapter::diff` (AtomicStructureAdapter.cpp:167-241) of two structures that are different objects of
the class. -/
def nanDiff (s : NSorter) (a0 a1 : List NAtom) : SD :=
  let r := nsideLoop 0 a0 a1
  let sd1 : SD := ⟨a0.length, a1.length, r.1, r.2, .sideBySide⟩
  if sd1.allowsFast then sd1
  else
    let p := nsplitDiff (nsymDiff (s.byAtom (nindex0 a0)) (s.byAtom (nindex1 a1)))
    ⟨a0.length, a1.length, s.byIndex p.1, s.byIndex p.2, .sorted⟩

end Verif.NanDiff
