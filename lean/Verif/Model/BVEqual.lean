import Verif.Model.Equality
/-
Comparison and hashing of `BVParam` (src/diffpy/srreal/BVParam.cpp, BVParam.hpp), with the special values of `double`.
-/
namespace Verif.BVEqual
open Verif.Equality

/-- The members of `BVParam` (BVParam.hpp:50-56). -/
structure Param where
  atom0 : String
  valence0 : Int
  atom1 : String
  valence1 : Int
  Ro : Fl
  B : Fl
  ref : String
deriving DecidableEq, Repr

/-- The constructors of `BVParam` (BVParam.cpp:32-57): atoms in the order of decreasing valence. -/
def Param.make (atom0 : String) (valence0 : Int) (atom1 : String) (valence1 : Int) (Ro B : Fl) (ref : String) : Param :=
  if valence0 < valence1 then ⟨atom1, valence1, atom0, valence0, Ro, B, ref⟩ else ⟨atom0, valence0, atom1, valence1, Ro, B, ref⟩

/-- `BVParam::operator==` (BVParam.cpp:61-71); `same` is `this == &other`. -/
def Param.eq (same : Bool) (p q : Param) : Bool :=
  same || (p.valence0 == q.valence0 && p.valence1 == q.valence1 && p.Ro.eq q.Ro && p.B.eq q.B && p.atom0 == q.atom0 && p.atom1 == q.atom1 && p.ref == q.ref)

/-- `BVParam::operator!=` (BVParam.cpp:74-77). -/
def Param.ne (same : Bool) (p q : Param) : Bool := !p.eq same q

/-- `BVParam::BondEqual` (BVParam.cpp:124-132); `same` is `&bp0 == &bp1`. -/
def Param.bondEqual (same : Bool) (p q : Param) : Bool :=
  same || (p.valence0 == q.valence0 && p.valence1 == q.valence1 && p.atom0 == q.atom0 && p.atom1 == q.atom1)

/-- `BVParam::BondHash` (BVParam.cpp:112-120) with hash functions for strings and integers and `boost::hash_combine` arbitrary. -/
def Param.bondHash (str : String → Nat) (int : Int → Nat) (combine : Nat → Nat → Nat) (p : Param) : Nat :=
  combine (combine (combine (combine 0 (str p.atom0)) (int p.valence0)) (str p.atom1)) (int p.valence1)

/-- `std::unordered_set<BVParam, BondHash, BondEqual>::find` (BVParametersTable.hpp:41-42): the standard only compares elements of
the bucket of the hash, here those of equal hash; `l` are the elements. -/
def find (str : String → Nat) (int : Int → Nat) (combine : Nat → Nat → Nat) (l : List Param) (q : Param) : Option Param :=
  (l.filter fun p => p.bondHash str int combine == q.bondHash str int combine).find? fun p => p.bondEqual false q

end Verif.BVEqual
