import Verif.Model.Evaluator
import Verif.Model.Diff
import Mathlib.Algebra.Group.Int.Defs
import Mathlib.Algebra.Group.Defs
/-
Model of a calculator object over a history of calls: PairQuantity (src/diffpy/srreal/
PairQuantity.cpp) with its evaluator (PQEvaluator.cpp).

A calculator class `Calc` is described by what it contributes to the evaluation loops; the state
`St` holds the tickers, the last structure, the value and the configuration.  An evaluation is a
list of elementary state changes, so that an exception at any point is a prefix of that list.
Structures are immutable snapshots: `clone()` is the identity, and editing a structure object in
place is passing another snapshot to the next call.  Tickers are numbers drawn from the
process-wide click counter (justified by the theorems on EventTicker, C01).
-/
namespace Verif.History
open Verif.Eval Verif.Diff

/-- `PQEvaluatorType` (PQEvaluator.hpp:45). -/
inductive EvType | none | basic | optimized | check
deriving DecidableEq, Repr

/-- A calculator class and the structures it is used with.  `C` is the configuration that the
accumulated value depends on (r limits, masks, ...), `S` the structures, `B` the bonds, `G` the
values. -/
structure Calc (C S B G : Type) where
  /-- flag USEFULLSUM -/
  fullSum : Bool
  /-- flag FIXEDSITEINDEX -/
  fixedIdx : Bool
  /-- the class implements stashPartialValue and restorePartialValue -/
  canStash : Bool
  /-- `hasPairMask()` (PairQuantity.cpp:392-396) -/
  hasPairMask : C → Bool
  /-- outcome of the load balance test (PQEvaluator.cpp:107) for the count of sites and ncpu -/
  rule : Nat → Int → Bool
  /-- `countSites()` -/
  count : S → Nat
  /-- `createBondGenerator()` followed by `configureBondGenerator` -/
  gen : C → S → Gen B
  /-- pair mask after `updateMaskData` for the structure -/
  use : C → S → Nat → Nat → Bool
  /-- `addPairContribution` without the scale; `S` is the structure the calculator's caches are
  built for, the data of the bond itself are in `B` -/
  con : C → S → Nat → Nat → B → G
  /-- `customPQConfig`: new configuration, and whether the ticker was clicked -/
  custom : S → C → C × Bool
  /-- `StructureAdapter::diff` -/
  diff : S → S → SD
  /-- `pqresults::compare` (PQEvaluator.cpp:336-345) -/
  close : G → G → Bool

/-- State of the calculator object and its evaluator (PairQuantity.hpp, PQEvaluator.hpp). -/
structure St (C S G : Type) where
  /-- the process-wide click counter of EventTicker -/
  clock : Nat
  /-- `pq.ticker()` -/
  pqTick : Nat
  /-- `mvalue_ticker` -/
  valTick : Nat
  /-- `mlast_structure` -/
  last : Option S
  /-- `mstructure`, and the structure that masks and caches are built for -/
  cur : S
  cfg : C
  /-- `mvalue` -/
  value : G
  /-- the stashed partial value -/
  stash : G
  /-- results saved by the CHECK evaluator -/
  saved : G
  evtype : EvType
  /-- `mtypeused` -/
  used : EvType
  cpuindex : Int
  ncpu : Int

variable {C S B G : Type} [AddCommGroup G]

/-- `mticker.click()` (EventTicker.cpp:39-48). -/
def clickPq (st : St C S G) : St C S G :=
  { st with clock := st.clock + 1, pqTick := st.clock + 1 }

/-- `mvalue_ticker.click()` (PQEvaluator.cpp:127, :297). -/
def clickVal (st : St C S G) : St C S G :=
  { st with clock := st.clock + 1, valTick := st.clock + 1 }

/-- `PairQuantity::setStructure` (PairQuantity.cpp:69-75). -/
def setStru (K : Calc C S B G) (stru : S) (st : St C S G) : St C S G :=
  let r := K.custom stru st.cfg
  let st' := { st with cur := stru, cfg := r.1, value := 0 }
  if r.2 then clickPq st' else st'

/-- `pq.addPairContribution(*bnds, summationscale)` (PQEvaluator.cpp:124, :243, :293). -/
def addC (K : Calc C S B G) (t : Contrib B) (st : St C S G) : St C S G :=
  { st with value := st.value + t.scale • K.con st.cfg st.cur t.i0 t.i1 t.bond }

/-- `mlast_structure = pq.getStructure()->clone()` (PQEvaluator.cpp:296, :305). -/
def setLast (st : St C S G) : St C S G := { st with last := some st.cur }

/-- `mtypeused = ...` (PQEvaluator.cpp:99, :183, :423). -/
def setUsed (t : EvType) (st : St C S G) : St C S G := { st with used := t }

/-- `pq.stashPartialValue()` (PQEvaluator.cpp:249). -/
def doStash (st : St C S G) : St C S G := { st with stash := st.value }

/-- `pq.restorePartialValue()` (PQEvaluator.cpp:258). -/
def doRestore (st : St C S G) : St C S G := { st with value := st.stash }

/-- `create_pqresults(pq)` (PQEvaluator.cpp:420). -/
def doSave (st : St C S G) : St C S G := { st with saved := st.value }

/-- A program: elementary state changes in order. -/
abbrev Prog (C S G : Type) := List (St C S G → St C S G)

/-- Running a program. -/
def exec (p : Prog C S G) (st : St C S G) : St C S G := p.foldl (fun s f => f s) st

/-- The calls of `PQEvaluatorBasic::updateValue` (PQEvaluator.cpp:96-128) for structure `stru`
with configuration `c` at entry. -/
def basicProg (K : Calc C S B G) (c : C) (cpu ncpu : Int) (stru : S) : Prog C S G :=
  let c' := (K.custom stru c).1
  [setUsed .basic, setStru K stru] ++
    (basicTrace (K.rule (K.count stru) ncpu) (K.gen c' stru) K.fullSum (K.use c' stru)
      (K.count stru) cpu ncpu).map (addC K) ++ [clickVal]

/-- `PQEvaluatorOptimized::updateValueCompletely` (PQEvaluator.cpp:301-306). -/
def completeProg (K : Calc C S B G) (c : C) (cpu ncpu : Int) (stru : S) : Prog C S G :=
  basicProg K c cpu ncpu stru ++ [setLast]

/-- The part of `PQEvaluatorOptimized::updateValue` after the decision for a fast update
(PQEvaluator.cpp:200-298), `s0` is the last structure and `d` the difference. -/
def fastProg (K : Calc C S B G) (st : St C S G) (s0 stru : S) (d : SD) : Prog C S G :=
  let c' := (K.custom stru st.cfg).1
  let rem := removeTrace (K.gen st.cfg s0) K.fullSum (K.use st.cfg st.cur) (K.count s0) d.pop0
    st.cpuindex st.ncpu
  rem.2.map (addC K) ++ [doStash, setStru K stru] ++
    if (setStru K stru st).pqTick ≥ st.valTick then completeProg K c' st.cpuindex st.ncpu stru
    else [doRestore] ++
      (addTrace (K.gen c' stru) K.fullSum (K.use c' stru) (K.count stru) d.add1 rem.1 st.ncpu).map
        (addC K) ++ [setLast, clickVal]

/-- The decision at the start of `PQEvaluatorOptimized::updateValue` (PQEvaluator.cpp:184-199):
the last structure and the difference when a fast update is used. -/
def fastChoice (K : Calc C S B G) (st : St C S G) (stru : S) : Option (S × SD) :=
  match st.last with
  | none => none
  | some s0 =>
    if st.pqTick ≥ st.valTick then none
    else if !(K.diff s0 stru).allowsFast then none
    else if (K.fixedIdx || K.hasPairMask st.cfg) && decide ((K.diff s0 stru).method ≠ .sideBySide) then
      none
    else some (s0, K.diff s0 stru)

/-- `PQEvaluatorOptimized::updateValue` (PQEvaluator.cpp:180-298). -/
def optProg (K : Calc C S B G) (st : St C S G) (stru : S) : Prog C S G :=
  setUsed .optimized ::
    match fastChoice K st stru with
    | none => completeProg K st.cfg st.cpuindex st.ncpu stru
    | some (s0, d) => fastProg K st s0 stru d

/-- `PQEvaluatorCheck::updateValue` (PQEvaluator.cpp:415-429) without the final comparison. -/
def checkProg (K : Calc C S B G) (st : St C S G) (stru : S) : Prog C S G :=
  let st' := exec (optProg K st stru) st
  optProg K st stru ++
    if st'.used = .basic then []
    else [doSave] ++ basicProg K st'.cfg st.cpuindex st.ncpu stru ++ [setUsed .check]

/-- `mevaluator->updateValue(*this, stru)` for the evaluator in use (PairQuantity.cpp:61-66). -/
def evalProg (K : Calc C S B G) (st : St C S G) (stru : S) : Prog C S G :=
  match st.evtype with
  | .optimized => optProg K st stru
  | .check => checkProg K st stru
  | _ => basicProg K st.cfg st.cpuindex st.ncpu stru

/-- State after `eval(stru)` (PairQuantity.cpp:61-66; `finishValue` of the base class does
nothing, PairQuantity.hpp:96). -/
def evalSt (K : Calc C S B G) (st : St C S G) (stru : S) : St C S G :=
  exec (evalProg K st stru) st

/-- Result of `eval(stru)`: `none` when the CHECK evaluator throws (PQEvaluator.cpp:424-428). -/
def evalResult (K : Calc C S B G) (st : St C S G) (stru : S) : Option G :=
  let st' := evalSt K st stru
  if st.evtype = .check ∧ st'.used = .check ∧ K.close st'.saved st'.value = false then none
  else some st'.value

/-- Calls on a calculator. -/
inductive Op (C S : Type)
  /-- `eval(stru)` -/
  | eval (stru : S)
  /-- `eval(stru)` that throws after `k` elementary state changes -/
  | evalFail (stru : S) (k : Nat)
  /-- public `setStructure(stru)` -/
  | setStructure (stru : S)
  /-- a configuration call: the effect on the configuration and whether the ticker is clicked -/
  | configure (f : C → C) (clicks : Bool)
  /-- `setEvaluatorType(t)` -/
  | setType (t : EvType)
  /-- `setupParallelRun(cpuindex, ncpu)` -/
  | setupParallel (cpuindex ncpu : Int)

/-- `PairQuantity::setEvaluatorType` (PairQuantity.cpp:144-162) with `createPQEvaluator`
(PQEvaluator.cpp:432-466): the new evaluator has no last structure; a type that the class does not
support throws and changes nothing (`NONE` is rejected by the factory). -/
def setTypeSt (K : Calc C S B G) (t : EvType) (st : St C S G) : St C S G :=
  if st.evtype = t then st
  else if t = .none then st
  else if t ≠ .basic ∧ K.canStash = false then st
  else { st with evtype := t, last := none, value := 0 }

/-- One call. -/
def step (K : Calc C S B G) (st : St C S G) : Op C S → St C S G
  | .eval stru => evalSt K st stru
  | .evalFail stru k => exec ((evalProg K st stru).take k) st
  | .setStructure stru => setStru K stru st
  | .configure f clicks =>
    let st' := { st with cfg := f st.cfg }
    if clicks then clickPq st' else st'
  | .setType t => setTypeSt K t st
  | .setupParallel cpuindex ncpu =>       -- PairQuantity.cpp:177-180, PQEvaluator.cpp:144-154
    if ncpu < 1 then st else { st with cpuindex := cpuindex, ncpu := ncpu }

/-- State after a history. -/
def runOps (K : Calc C S B G) (st : St C S G) (ops : List (Op C S)) : St C S G :=
  ops.foldl (step K) st

/-- A new calculator (PairQuantity.cpp:39-51, PQEvaluator.cpp:73-76) with configuration `c`, the
empty structure `e`, assigned to job `cpuindex` of `ncpu`. -/
def init (c : C) (e : S) (cpuindex ncpu : Int) : St C S G :=
  ⟨0, 0, 0, none, e, c, 0, 0, 0, .basic, .none, cpuindex, ncpu⟩

end Verif.History
