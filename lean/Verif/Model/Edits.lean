import Verif.Model.Diff
/-!
Model of the operations that edit an atomic structure (AtomicStructureAdapter.cpp:245-300,
AtomicStructureAdapter.hpp:104-133).  Iterators are offsets from `begin()`.  An operation outside its precondition (the
asserts, which are off in a release build) is `none`.
-/
namespace Verif.Edits
open Verif.Diff

/-- The editing operations. -/
inductive Edit
  /-- `insert(int, const Atom&)` (AtomicStructureAdapter.cpp:245-249) and `insert(iterator, const Atom&)` (:252-255). -/
  | insert (idx : Nat) (a : Atom)
  /-- `insert(iterator, Iter, Iter)` (AtomicStructureAdapter.hpp:106-110), with the atoms of another container. -/
  | insertRange (idx : Nat) (l : List Atom)
  /-- `append` (AtomicStructureAdapter.cpp:258-261). -/
  | append (a : Atom)
  /-- `clear` (AtomicStructureAdapter.cpp:264-267). -/
  | clear
  /-- `erase(int)` (AtomicStructureAdapter.cpp:270-274), `erase(iterator)` (:277-280). -/
  | erase (idx : Nat)
  /-- `erase(iterator, iterator)` (AtomicStructureAdapter.cpp:283-286). -/
  | eraseRange (first last : Nat)
  /-- A write through `operator[]` (AtomicStructureAdapter.cpp:289-293), `at` (AtomicStructureAdapter.hpp:120) or an
  iterator (:126-133): the atom gets a new value. -/
  | set (idx : Nat) (a : Atom)
  /-- `assign(Iter, Iter)` (AtomicStructureAdapter.hpp:122-123), with the atoms of another container. -/
  | assign (l : List Atom)
  /-- `assign(size_t, const Atom&)` (AtomicStructureAdapter.hpp:124). -/
  | assignN (n : Nat) (a : Atom)
  /-- `reserve` (AtomicStructureAdapter.hpp:116). -/
  | reserve (n : Nat)

/-- The effect of an operation on `matoms`; see `Edit` for the cited lines. -/
def edit (l : List Atom) : Edit → Option (List Atom)
  | .insert i a => if i ≤ l.length then some (l.take i ++ a :: l.drop i) else none
  | .insertRange i m => if i ≤ l.length then some (l.take i ++ m ++ l.drop i) else none
  | .append a => some (l ++ [a])
  | .clear => some []
  | .erase i => if i < l.length then some (l.take i ++ l.drop (i + 1)) else none
  | .eraseRange f e => if f ≤ e ∧ e ≤ l.length then some (l.take f ++ l.drop e) else none
  | .set i a => if i < l.length then some (l.take i ++ a :: l.drop (i + 1)) else none
  | .assign m => some m
  | .assignN n a => some (List.replicate n a)
  | .reserve _ => some l

/-- The position of the iterator that `insert` (AtomicStructureAdapter.cpp:245-255) and `erase`
(AtomicStructureAdapter.cpp:270-286) return. -/
def resultPos : Edit → Option Nat
  | .insert i _ => some i
  | .erase i => some i
  | .eraseRange f _ => some f
  | _ => none

/-- A sequence of operations. -/
def edits (l : List Atom) : List Edit → Option (List Atom)
  | [] => some l
  | e :: es => match edit l e with
    | none => none
    | some m => edits m es

end Verif.Edits
