import Verif.Model.History
import Mathlib.Algebra.Order.Field.Basic
import Mathlib.Algebra.Order.AbsoluteValue.Basic
/-
The evaluators of `Model/History.lean` with rounded additions.  `addPairContribution` is a parameter `ad` here, so that the same
program can be run with exact additions (`stepW_exact` in Props/Rounding.lean: this is the model of C12), with rounded ones and
with a counter of the additions.
-/
namespace Verif.Rounding
open Verif.Eval Verif.Diff Verif.History

variable {C S B H G : Type} [Zero G]

/-- `PairQuantity::setStructure` (PairQuantity.cpp:69-75). -/
def setStruW (K : Calc C S B H) (stru : S) (st : St C S G) : St C S G :=
  let r := K.custom stru st.cfg
  let st' := { st with cur := stru, cfg := r.1, value := 0 }
  if r.2 then { st' with clock := st'.clock + 1, pqTick := st'.clock + 1 } else st'

/-- `mvalue_ticker.click()` (PQEvaluator.cpp:127, :297). -/
def clickValW (st : St C S G) : St C S G := { st with clock := st.clock + 1, valTick := st.clock + 1 }

/-- `mlast_structure = pq.getStructure()->clone()` (PQEvaluator.cpp:296, :305). -/
def setLastW (st : St C S G) : St C S G := { st with last := some st.cur }

/-- `mtypeused = ...` (PQEvaluator.cpp:99, :183, :423). -/
def setUsedW (t : EvType) (st : St C S G) : St C S G := { st with used := t }

/-- `pq.stashPartialValue()` (PQEvaluator.cpp:249). -/
def doStashW (st : St C S G) : St C S G := { st with stash := st.value }

/-- `pq.restorePartialValue()` (PQEvaluator.cpp:258). -/
def doRestoreW (st : St C S G) : St C S G := { st with value := st.stash }

/-- `create_pqresults(pq)` (PQEvaluator.cpp:420). -/
def doSaveW (st : St C S G) : St C S G := { st with saved := st.value }

/-- The call `pq.addPairContribution(*bnds, summationscale)` (PQEvaluator.cpp:124, :243, :293): `ad x v` is the value after the
contribution `x` was added to the value `v`. -/
def addW (K : Calc C S B H) [AddCommGroup H] (ad : H → G → G) (t : Contrib B) (st : St C S G) : St C S G :=
  { st with value := ad (t.scale • K.con st.cfg st.cur t.i0 t.i1 t.bond) st.value }

variable [AddCommGroup H]

/-- `PQEvaluatorBasic::updateValue` (PQEvaluator.cpp:96-128). -/
def basicProgW (K : Calc C S B H) (ad : H → G → G) (c : C) (cpu ncpu : Int) (stru : S) : Prog C S G :=
  let c' := (K.custom stru c).1
  [setUsedW .basic, setStruW K stru] ++
    (basicTrace (K.rule (K.count stru) ncpu) (K.gen c' stru) K.fullSum (K.use c' stru)
      (K.count stru) cpu ncpu).map (addW K ad) ++ [clickValW]

/-- `PQEvaluatorOptimized::updateValueCompletely` (PQEvaluator.cpp:301-306). -/
def completeProgW (K : Calc C S B H) (ad : H → G → G) (c : C) (cpu ncpu : Int) (stru : S) : Prog C S G :=
  basicProgW K ad c cpu ncpu stru ++ [setLastW]

/-- The fast update (PQEvaluator.cpp:200-298). -/
def fastProgW (K : Calc C S B H) (ad : H → G → G) (st : St C S G) (s0 stru : S) (d : SD) : Prog C S G :=
  let c' := (K.custom stru st.cfg).1
  let rem := removeTrace (K.gen st.cfg s0) K.fullSum (K.use st.cfg st.cur) (K.count s0) d.pop0
    st.cpuindex st.ncpu
  rem.2.map (addW K ad) ++ [doStashW, setStruW K stru] ++
    if (setStruW K stru st).pqTick ≥ st.valTick then completeProgW K ad c' st.cpuindex st.ncpu stru
    else [doRestoreW] ++
      (addTrace (K.gen c' stru) K.fullSum (K.use c' stru) (K.count stru) d.add1 rem.1 st.ncpu).map
        (addW K ad) ++ [setLastW, clickValW]

/-- The decision for a fast update (PQEvaluator.cpp:184-199). -/
def fastChoiceW (K : Calc C S B H) (st : St C S G) (stru : S) : Option (S × SD) :=
  match st.last with
  | none => none
  | some s0 =>
    if st.pqTick ≥ st.valTick then none
    else if !(K.diff s0 stru).allowsFast then none
    else if (K.fixedIdx || K.hasPairMask st.cfg) && decide ((K.diff s0 stru).method ≠ .sideBySide) then
      none
    else some (s0, K.diff s0 stru)

/-- `PQEvaluatorOptimized::updateValue` (PQEvaluator.cpp:180-298). -/
def optProgW (K : Calc C S B H) (ad : H → G → G) (st : St C S G) (stru : S) : Prog C S G :=
  setUsedW .optimized ::
    match fastChoiceW K st stru with
    | none => completeProgW K ad st.cfg st.cpuindex st.ncpu stru
    | some (s0, d) => fastProgW K ad st s0 stru d

/-- Running a program. -/
def execW (p : Prog C S G) (st : St C S G) : St C S G := p.foldl (fun s f => f s) st

/-- `PQEvaluatorCheck::updateValue` (PQEvaluator.cpp:415-429) without the final comparison. -/
def checkProgW (K : Calc C S B H) (ad : H → G → G) (st : St C S G) (stru : S) : Prog C S G :=
  let st' := execW (optProgW K ad st stru) st
  optProgW K ad st stru ++
    if st'.used = .basic then []
    else [doSaveW] ++ basicProgW K ad st'.cfg st.cpuindex st.ncpu stru ++ [setUsedW .check]

/-- `mevaluator->updateValue(*this, stru)` (PairQuantity.cpp:61-66). -/
def evalProgW (K : Calc C S B H) (ad : H → G → G) (st : St C S G) (stru : S) : Prog C S G :=
  match st.evtype with
  | .optimized => optProgW K ad st stru
  | .check => checkProgW K ad st stru
  | _ => basicProgW K ad st.cfg st.cpuindex st.ncpu stru

/-- State after `eval(stru)` (PairQuantity.cpp:61-66). -/
def evalStW (K : Calc C S B H) (ad : H → G → G) (st : St C S G) (stru : S) : St C S G :=
  execW (evalProgW K ad st stru) st

/-- `PairQuantity::setEvaluatorType` (PairQuantity.cpp:144-162). -/
def setTypeW (K : Calc C S B H) (t : EvType) (st : St C S G) : St C S G :=
  if st.evtype = t then st
  else if t = .none then st
  else if t ≠ .basic ∧ K.canStash = false then st
  else { st with evtype := t, last := none, value := 0 }

/-- One call, as `History.step`. -/
def stepW (K : Calc C S B H) (ad : H → G → G) (st : St C S G) : Op C S → St C S G
  | .eval stru => evalStW K ad st stru
  | .evalFail stru k => execW ((evalProgW K ad st stru).take k) st
  | .setStructure stru => setStruW K stru st
  | .configure f clicks =>
    let st' := { st with cfg := f st.cfg }
    if clicks then { st' with clock := st'.clock + 1, pqTick := st'.clock + 1 } else st'
  | .setType t => setTypeW K t st
  | .setupParallel cpuindex ncpu =>
    if ncpu < 1 then st else { st with cpuindex := cpuindex, ncpu := ncpu }

/-- State after a history. -/
def runW (K : Calc C S B H) (ad : H → G → G) (st : St C S G) (ops : List (Op C S)) : St C S G :=
  ops.foldl (stepW K ad) st

/-- A new calculator, as `History.init`. -/
def initW (c : C) (e : S) (cpuindex ncpu : Int) : St C S G :=
  ⟨0, 0, 0, none, e, c, 0, 0, 0, .basic, .none, cpuindex, ncpu⟩

/-! ### Rounded addition -/

section
variable {ι N : Type} [Field N] [LinearOrder N]

/-- `mvalue[k] += x[k]` (PDFCalculator.cpp:535, BaseDebyeSum.cpp:187, BVSCalculator.cpp:178-179, PairCounter.cpp:37) in an
arithmetic that rounds the sum of two numbers with `fl`.  The contribution `x` is the number that the program computed; the two
additions of a BVS bond between a site and its own image are taken as one. -/
def rounded (fl : N → N) (x v : ι → N) : ι → N := fun k => fl (v k + x k)

/-- The merge of the jobs' values in the master (PairQuantity.cpp:362-374) in that arithmetic, starting from zeros
(PairQuantity.cpp:90-106). -/
def mergeR (fl : N → N) (vs : List (ι → N)) : ι → N := vs.foldl (fun v x => rounded fl x v) 0

/-- `cmpfabs` with `std::max_element` (PQEvaluator.cpp:312-315, :338-339): the first element of largest magnitude. -/
def maxAbs : N → List N → N
  | m, [] => m
  | m, x :: xs => maxAbs (if |m| < |x| then x else m) xs

/-- The tolerance of the CHECK evaluator (PQEvaluator.cpp:338-341). -/
def checkEps (sqrtEps : N) : List N → N
  | [] => sqrtEps * 1
  | x :: xs => sqrtEps * max (maxAbs x xs) 1

/-- `std::equal` with `EpsilonEqual` (mathutils.hpp:83-99). -/
def allclose (eps : N) : List N → List N → Bool
  | [], [] => true
  | x :: xs, y :: ys => decide (|x - y| ≤ eps) && allclose eps xs ys
  | _, _ => false

/-- `pqresults::compare` (PQEvaluator.cpp:336-345). -/
def compareR (sqrtEps : N) (saved cur : List N) : Bool := allclose (checkEps sqrtEps saved) saved cur

end

end Verif.Rounding
