import Verif.Lemmas.AssocMap
/-!
Model of the class registry (src/diffpy/HasClassRegistry.ipp).  A prototype is a shared pointer:
an identity and the string returned by its `type()`.  The hook `setupRegisteredObject` (empty in
the library, HasClassRegistry.hpp:80-86) is not modelled.
-/
namespace Verif.Registry
open Verif.AssocMap

/-- `SharedPtr` to a prototype; equality of pointers is equality of `id`. -/
structure Proto where
  id : Nat
  type : String
deriving DecidableEq, Repr

/-- The singleton `the_registry` (HasClassRegistry.ipp:163-171) and the supply of new objects. -/
structure Reg where
  reg : List (String × Proto)
  next : Nat

/-- `registerThisType` of an object whose `type()` is `t` (HasClassRegistry.ipp:31-48); `false`
is the `logic_error`. -/
def registerThisType (r : Reg) (t : String) : Reg × Bool :=
  if (find r.reg t).isSome then (r, false)
  else (⟨put r.reg t ⟨r.next, t⟩, r.next + 1⟩, true)

/-- `aliasType` (HasClassRegistry.ipp:52-74). -/
def aliasType (r : Reg) (tp al : String) : Reg × Bool :=
  match find r.reg tp with
  | none => (r, false)
  | some p =>
    match find r.reg al with
    | some q => if q.id ≠ p.id then (r, false) else ({ r with reg := put r.reg al p }, true)
    | none => ({ r with reg := put r.reg al p }, true)

/-- `deregisterType` (HasClassRegistry.ipp:77-96): the new registry and the number of removed names. -/
def deregisterType (r : Reg) (tp : String) : Reg × Nat :=
  match find r.reg tp with
  | none => (r, 0)
  | some p => ({ r with reg := r.reg.filter fun e => !decide (e.2.id = p.id) },
      (r.reg.filter fun e => decide (e.2.id = p.id)).length)

/-- `createByType` (HasClassRegistry.ipp:99-115): the new object has the type of the prototype;
`none` is the `invalid_argument`. -/
def createByType (r : Reg) (tp : String) : Option String := (find r.reg tp).map (·.type)

/-- `isRegisteredType` (HasClassRegistry.ipp:118-124). -/
def isRegisteredType (r : Reg) (tp : String) : Bool := (find r.reg tp).isSome

/-- `getAliasedTypes` (HasClassRegistry.ipp:127-143). -/
def getAliasedTypes (r : Reg) : List (String × String) :=
  (r.reg.filter fun e => decide (e.1 ≠ e.2.type)).map fun e => (e.1, e.2.type)

/-- `getRegisteredTypes` (HasClassRegistry.ipp:146-159), as a list for the set. -/
def getRegisteredTypes (r : Reg) : List String := r.reg.map (·.2.type)

/-- `ScatteringFactorTable::registerThisType` (ScatteringFactorTable.cpp:36-43): register the type
`t`, then alias it to its radiation type `rad`; an exception of the second step leaves the first. -/
def sftRegister (r : Reg) (t rad : String) : Reg × Bool :=
  match registerThisType r t with
  | (r1, false) => (r1, false)
  | (r1, true) => aliasType r1 t rad

/-- A call that changes the registry. -/
inductive Op
  | register (t : String)
  | mkAlias (tp al : String)
  | deregister (tp : String)

/-- One call and its result: 1/0 for success/exception, or the count of `deregisterType`. -/
def step (r : Reg) : Op → Reg × Nat
  | .register t => ((registerThisType r t).1, if (registerThisType r t).2 then 1 else 0)
  | .mkAlias tp al => ((aliasType r tp al).1, if (aliasType r tp al).2 then 1 else 0)
  | .deregister tp => deregisterType r tp

/-- A sequence of calls from the empty registry. -/
def run (ops : List Op) : Reg := ops.foldl (fun r o => (step r o).1) ⟨[], 0⟩

end Verif.Registry
