import Mathlib.Algebra.Group.Defs
/-
Model of the parallel-merge protocol and of evaluator switching:
src/diffpy/srreal/PairQuantity.cpp:96-185, :340-375 and PQEvaluator.cpp:130-160, :430-466.
Operations that may throw return `Except`; on `error` the state is the one before the call only if
the code guarantees it, so the state is returned in both cases.
-/
namespace Verif.Protocol

/-- Exceptions of the modelled calls. -/
inductive Err | invalidArgument | runtimeError | logicError
deriving DecidableEq, Repr

/-- Outcome of a call: the state afterwards and the exception thrown, if any. -/
structure Out (σ : Type) where
  st : σ
  err : Option Err

section Merge
variable {R : Type} [AddCommMonoid R]

/-- State of a calculator that collects results (PairQuantity.hpp: mvalue, mmergedvaluescount);
`finished` counts the calls of `finishValue()`. -/
structure Merge (R : Type) where
  value : List R
  count : Int
  finished : Nat

/-- `PairQuantity::executeParallelMerge` (PairQuantity.cpp:362-374).  `pdata` is the deserialised
array. -/
def executeMerge (m : Merge R) (pdata : List R) : Out (Merge R) :=
  if pdata.length ≠ m.value.length then ⟨m, some .invalidArgument⟩
  else ⟨{ m with value := List.zipWith (· + ·) m.value pdata }, none⟩

/-- `PairQuantity::mergeParallelData` (PairQuantity.cpp:96-107). -/
def mergeParallelData (m : Merge R) (pdata : List R) (ncpu : Int) : Out (Merge R) :=
  if m.count ≥ ncpu then ⟨m, some .runtimeError⟩
  else
    match executeMerge m pdata with
    | ⟨m', some e⟩ => ⟨m', some e⟩
    | ⟨m', none⟩ =>
      let m'' := { m' with count := m'.count + 1 }
      ⟨if m''.count = ncpu then { m'' with finished := m''.finished + 1 } else m'', none⟩

/-- `PairQuantity::resetValue` (PairQuantity.cpp:348-352). -/
def resetValue (m : Merge R) : Merge R :=
  { m with count := 0, value := m.value.map fun _ => 0 }

/-- `getParallelData()` (PairQuantity.cpp:110-116), the serialised array being the array itself. -/
def getParallelData (m : Merge R) : List R := m.value

/-- Merging several parts in turn; stops at the first exception. -/
def mergeAll (m : Merge R) (ncpu : Int) : List (List R) → Out (Merge R)
  | [] => ⟨m, none⟩
  | p :: ps =>
    match mergeParallelData m p ncpu with
    | ⟨m', some e⟩ => ⟨m', some e⟩
    | ⟨m', none⟩ => mergeAll m' ncpu ps

end Merge

section Switch

/-- `PQEvaluatorType` as the integer given by the caller (PQEvaluator.hpp:45). -/
abbrev tNone : Int := 0
abbrev tBasic : Int := 1
abbrev tOptimized : Int := 2
abbrev tCheck : Int := 3

/-- Evaluator object (PQEvaluator.hpp:81-95): configuration flags, CPU assignment, value ticker,
type used and last structure (as an abstract identity). -/
structure Evaluator where
  type : Int
  flags : BitVec 32
  cpuindex : Int
  ncpu : Int
  valTick : Nat
  used : Int
  last : Option Nat
deriving DecidableEq

/-- `PQEvaluatorBasic::setFlag` (PQEvaluator.cpp:131-135). -/
def setFlag (e : Evaluator) (flag : BitVec 32) (value : Bool) : Evaluator :=
  if value then { e with flags := e.flags ||| flag } else { e with flags := e.flags &&& ~~~flag }

/-- `PQEvaluatorBasic::getFlag` (PQEvaluator.cpp:138-141). -/
def getFlag (e : Evaluator) (flag : BitVec 32) : Bool := decide (e.flags &&& flag ≠ 0)

/-- USEFULLSUM and FIXEDSITEINDEX (PQEvaluator.hpp:47-52). -/
def USEFULLSUM : BitVec 32 := 1
def FIXEDSITEINDEX : BitVec 32 := 2

/-- `PQEvaluatorBasic::setupParallelRun` (PQEvaluator.cpp:144-154). -/
def setupParallelRun (e : Evaluator) (cpuindex ncpu : Int) : Out Evaluator :=
  if ncpu < 1 then ⟨e, some .invalidArgument⟩ else ⟨{ e with cpuindex := cpuindex, ncpu := ncpu }, none⟩

/-- `createPQEvaluator` (PQEvaluator.cpp:432-464). -/
def createPQEvaluator (pqtp : Int) (src : Option Evaluator) : Except Err Evaluator :=
  if pqtp = tBasic ∨ pqtp = tOptimized ∨ pqtp = tCheck then
    match src with
    | none => .ok ⟨pqtp, 0, 0, 1, 0, tNone, none⟩
    | some s => .ok ⟨pqtp, s.flags, s.cpuindex, s.ncpu, s.valTick, s.used, none⟩
  else .error .invalidArgument

/-- A calculator object as far as switching goes: whether its class defines `stashPartialValue`
(base version throws logic_error, PairQuantity.cpp:405-418), its evaluator and its value. -/
structure PQ where
  canStash : Bool
  evaluator : Option Evaluator
  value : List Int
  merged : Int
deriving DecidableEq

/-- `validate` (PQEvaluator.cpp:90-93, :172-177): a fast evaluator calls `stashPartialValue` and
`restorePartialValue`. -/
def validate (e : Evaluator) (q : PQ) : Option Err :=
  if e.type = tBasic then none else if q.canStash then none else some .logicError

/-- `PairQuantity::setEvaluatorType` (PairQuantity.cpp:144-162). -/
def setEvaluatorType (q : PQ) (evtp : Int) : Out PQ :=
  if (q.evaluator.map Evaluator.type) = some evtp then ⟨q, none⟩
  else match createPQEvaluator evtp q.evaluator with
    | .error e => ⟨q, some e⟩
    | .ok pqev =>
      match validate pqev q with
      | some _ => ⟨q, some .invalidArgument⟩
      | none => ⟨{ q with evaluator := some pqev, value := q.value.map fun _ => 0, merged := 0 }, none⟩

/-- `getEvaluatorType` (PairQuantity.cpp:165-168), 0 without an evaluator. -/
def getEvaluatorType (q : PQ) : Int := (q.evaluator.map Evaluator.type).getD tNone

/-- The calculator after a sequence of `setEvaluatorType` calls, exceptions being caught. -/
def switchAll (q : PQ) : List Int → PQ
  | [] => q
  | t :: ts => switchAll (setEvaluatorType q t).st ts

/-- The constructor's state (PairQuantity.cpp:39-51). -/
def newPQ (canStash : Bool) (n : Nat) : PQ :=
  (setEvaluatorType ⟨canStash, none, List.replicate n 0, 0⟩ tBasic).st

end Switch

end Verif.Protocol
