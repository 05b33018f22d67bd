import Mathlib.Data.Rat.Defs
import Mathlib.Algebra.Order.Ring.Unbundled.Rat
import Mathlib.Data.String.Basic
/-
Comparison and hashing of atoms, lattices, symmetry operations and structures, with the special values of `double`
(R3linalg.hpp:162-197, R3linalg.cpp:85-94, AtomicStructureAdapter.cpp:37-93, AtomicStructureAdapter.hpp:66-72, :141-146,
Lattice.cpp:271-281, CrystalStructureAdapter.hpp:53-63, CrystalStructureAdapter.cpp:260-279,
PeriodicStructureAdapter.cpp:109-127).
-/
namespace Verif.Equality

/-- A `double`: not-a-number, an infinity, or a finite number; `negz` tells `-0.0` from `0.0` and is meaningful for 0 only. -/
inductive Fl
  | nan
  | ninf
  | pinf
  | fin (x : Rat) (negz : Bool)
deriving DecidableEq, Repr

/-- `x == y` for `double` (IEEE 754): false for NaN, `0.0 == -0.0`. -/
def Fl.eq : Fl → Fl → Bool
  | .ninf, .ninf => true
  | .pinf, .pinf => true
  | .fin x _, .fin y _ => decide (x = y)
  | _, _ => false

/-- `x < y` for `double` (IEEE 754): false when either side is NaN. -/
def Fl.lt : Fl → Fl → Bool
  | .ninf, .pinf => true
  | .ninf, .fin _ _ => true
  | .fin _ _, .pinf => true
  | .fin x _, .fin y _ => decide (x < y)
  | _, _ => false

/-- `isnan`. -/
def Fl.isNan : Fl → Bool
  | .nan => true
  | _ => false

/-- `R3::Vector` (R3linalg.hpp:44-58): three components in iteration order. -/
structure Vec where
  x : Fl
  y : Fl
  z : Fl
deriving DecidableEq, Repr

/-- The components in iteration order. -/
def Vec.data (v : Vec) : List Fl := [v.x, v.y, v.z]

/-- `R3::Matrix` (R3linalg.hpp:97-116): rows. -/
structure Mat where
  r0 : Vec
  r1 : Vec
  r2 : Vec
deriving DecidableEq, Repr

/-- `A.data()` in iteration order, row major. -/
def Mat.data (m : Mat) : List Fl := m.r0.data ++ m.r1.data ++ m.r2.data

/-- `std::equal(u.begin(), u.end(), v.begin())` for ranges of one length. -/
def rangeEq : List Fl → List Fl → Bool
  | [], _ => true
  | a :: as, b :: bs => a.eq b && rangeEq as bs
  | _ :: _, [] => false

/-- `operator==(Vector, Vector)` (R3linalg.hpp:165-169). -/
def Vec.eq (u v : Vec) : Bool := rangeEq u.data v.data

/-- `operator==(Matrix, Matrix)` (R3linalg.hpp:180-185); `same` is `&A == &B`. -/
def Mat.eq (same : Bool) (a b : Mat) : Bool := same || rangeEq a.data b.data

/-- `Atom` (AtomicStructureAdapter.hpp:42-46). -/
structure Atom where
  atomtype : String
  xyz : Vec
  occupancy : Fl
  anisotropy : Bool
  uij : Mat
deriving DecidableEq, Repr

/-- The loops over components in `operator<` (AtomicStructureAdapter.cpp:43-47, :56-60): `some r` is `return r`. -/
def cmpLoop : List Fl → List Fl → Option Bool
  | a :: as, b :: bs => if a.lt b then some true else if b.lt a then some false else cmpLoop as bs
  | _, _ => none

/-- `operator<` (AtomicStructureAdapter.cpp:37-62). -/
def Atom.lt (a b : Atom) : Bool :=
  if a.atomtype < b.atomtype then true
  else if a.atomtype > b.atomtype then false
  else match cmpLoop a.xyz.data b.xyz.data with
    | some r => r
    | none =>
      if a.occupancy.lt b.occupancy then true
      else if b.occupancy.lt a.occupancy then false
      else if a.anisotropy < b.anisotropy then true
      else if a.anisotropy > b.anisotropy then false
      else match cmpLoop a.uij.data b.uij.data with
        | some r => r
        | none => false

/-- `operator>` (AtomicStructureAdapter.hpp:68). -/
def Atom.gt (a b : Atom) : Bool := b.lt a
/-- `operator<=` (AtomicStructureAdapter.hpp:69). -/
def Atom.le (a b : Atom) : Bool := !(b.lt a)
/-- `operator>=` (AtomicStructureAdapter.hpp:70). -/
def Atom.ge (a b : Atom) : Bool := !(a.lt b)

/-- `operator==(Atom, Atom)` (AtomicStructureAdapter.cpp:65-75); `same` is `&a0 == &a1`, which is also whether the two tensors
are one object. -/
def Atom.eq (same : Bool) (a b : Atom) : Bool :=
  same || (decide (a.atomtype = b.atomtype) && a.xyz.eq b.xyz && a.occupancy.eq b.occupancy &&
    (a.anisotropy == b.anisotropy) && Mat.eq same a.uij b.uij)

/-- `operator!=(Atom, Atom)` (AtomicStructureAdapter.cpp:78-81). -/
def Atom.ne (same : Bool) (a b : Atom) : Bool := !(Atom.eq same a b)

/-- The hash functions of the standard types and `boost::hash_combine`, left arbitrary. -/
structure Hash where
  /-- `boost::hash<double>` of a finite number other than zero -/
  num : Rat → Nat
  /-- of zeros: boost classifies with `fpclassify` and does not look at the sign -/
  zero : Nat
  nan : Nat
  pinf : Nat
  ninf : Nat
  str : String → Nat
  bool : Bool → Nat
  combine : Nat → Nat → Nat

/-- `boost::hash_value(double)`. -/
def Hash.fl (h : Hash) : Fl → Nat
  | .nan => h.nan
  | .pinf => h.pinf
  | .ninf => h.ninf
  | .fin x _ => if x = 0 then h.zero else h.num x

/-- `boost::hash_range`: `hash_combine` over the elements, from seed 0. -/
def Hash.range (h : Hash) (l : List Fl) : Nat := l.foldl (fun seed x => h.combine seed (h.fl x)) 0

/-- `hash_value(Vector)` (R3linalg.cpp:85-88). -/
def Hash.vec (h : Hash) (v : Vec) : Nat := h.range v.data
/-- `hash_value(Matrix)` (R3linalg.cpp:91-94). -/
def Hash.mat (h : Hash) (m : Mat) : Nat := h.range m.data

/-- `hash_value(Atom)` (AtomicStructureAdapter.cpp:84-93). -/
def Hash.atom (h : Hash) (a : Atom) : Nat :=
  h.combine (h.combine (h.combine (h.combine (h.combine 0 (h.str a.atomtype)) (h.vec a.xyz)) (h.fl a.occupancy))
    (h.bool a.anisotropy)) (h.mat a.uij)

/-- `std::vector<Atom>::operator==`: sizes, then elements in order; elements of one vector are the same objects. -/
def atomsEq (same : Bool) : List Atom → List Atom → Bool
  | [], [] => true
  | a :: as, b :: bs => Atom.eq same a b && atomsEq same as bs
  | _, _ => false

/-- `SymOpRotTrans` (CrystalStructureAdapter.hpp:33-41). -/
structure SymOp where
  R : Mat
  t : Vec
deriving DecidableEq, Repr

/-- `operator==(SymOpRotTrans, SymOpRotTrans)` (CrystalStructureAdapter.hpp:53-57). -/
def SymOp.eq (same : Bool) (a b : SymOp) : Bool := Mat.eq same a.R b.R && a.t.eq b.t

/-- `std::vector<SymOpRotTrans>::operator==`. -/
def opsEq (same : Bool) : List SymOp → List SymOp → Bool
  | [], [] => true
  | a :: as, b :: bs => SymOp.eq same a b && opsEq same as bs
  | _, _ => false

/-- A structure object: the atoms, the base of the lattice (all that is compared, see `Verif.Lattice` for the other members),
the operations and the precision.  Finite structures use `atoms` only, periodic ones `atoms` and `base`. -/
structure Stru where
  atoms : List Atom
  base : Mat
  ops : List SymOp
  precision : Fl
deriving DecidableEq, Repr

/-- `operator==` of `AtomicStructureAdapter` (AtomicStructureAdapter.hpp:141-146). -/
def eqAtomic (same : Bool) (s t : Stru) : Bool := atomsEq same s.atoms t.atoms

/-- `Lattice::operator==` (Lattice.cpp:271-275). -/
def eqLattice (same : Bool) (s t : Mat) : Bool := Mat.eq same s t

/-- `operator==` of `PeriodicStructureAdapter` (PeriodicStructureAdapter.cpp:109-119). -/
def eqPeriodic (same : Bool) (s t : Stru) : Bool := eqAtomic same s t && eqLattice same s.base t.base

/-- `operator==` of `CrystalStructureAdapter` (CrystalStructureAdapter.cpp:260-270). -/
def eqCrystal (same : Bool) (s t : Stru) : Bool := same || (eqPeriodic same s t && opsEq same s.ops t.ops)

end Verif.Equality
