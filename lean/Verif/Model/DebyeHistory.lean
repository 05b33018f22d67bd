import Verif.Model.PDFHistory
import Verif.Model.History
import Verif.Model.Protocol
import Mathlib.Algebra.Group.PUnit
/-
Model of a BaseDebyeSum object (DebyePDFCalculator) over a history of calls (src/diffpy/srreal/BaseDebyeSum.cpp and
DebyePDFCalculator.cpp with PairQuantity.cpp and PQEvaluator.cpp): the arrays and caches of the class.  Tickers, last structure and the
choice between full and fast evaluation are those of Model/History.lean, run here without a value.  Exceptions of `resetValue` (Q step too
small) are not part of this model.  The calls are those of Model/PDFHistory.lean.
-/
namespace Verif.DebyeHist
open Verif.Eval Verif.Diff Verif.History Verif.Debye
open Verif.PDFHist (POp)

/-- A Debye calculator and the structures it is used with.  `C` is the configuration, including the range and Q step that `resetValue`
adjusts, `S` the structures. -/
structure Cls (C S : Type) where
  /-- `hasPairMask()` (PairQuantity.cpp:392-396) -/
  hasPairMask : C → Bool
  /-- outcome of the load balance test (PQEvaluator.cpp:107) -/
  rule : Nat → Int → Bool
  /-- `countSites()` -/
  count : S → Nat
  /-- pair mask for the structure -/
  use : C → S → Nat → Nat → Bool
  /-- the configuration after `resetValue` for a structure (`cacheRlimitsData` and `updateQstep`, DebyePDFCalculator.cpp:266-271), and whether
  that clicked the ticker -/
  reset : S → C → C × Bool
  /-- the configuration after `setStructure`: `customPQConfig`, then `resetValue` (PairQuantity.cpp:69-75), and whether the ticker was clicked -/
  custom : S → C → C × Bool
  /-- `StructureAdapter::diff` -/
  diff : S → S → SD
  /-- Q parameters -/
  par : C → QPar
  /-- types of the sites and factors of the types stored by `cacheStructureData` (BaseDebyeSum.cpp:231-265) -/
  cache : C → S → Cache
  /-- `sfaverageatkq` stored by `cacheStructureData` (BaseDebyeSum.cpp:268-290) -/
  avg : C → S → List ℝ
  /-- `totaloccupancy` stored by `cacheStructureData` (BaseDebyeSum.cpp:266) -/
  totocc : S → ℝ
  /-- the bond generator of the structure after `configureBondGenerator` (DebyePDFCalculator.cpp:274-278), with what `addPairContribution`
  reads from it (BaseDebyeSum.cpp:170-177) -/
  gen : C → S → Gen Bond

/-- Data members of BaseDebyeSum (BaseDebyeSum.hpp): mstructure_cache, mvalue and mdbsumstash. -/
structure Data where
  cache : Cache
  avg : List ℝ
  totocc : ℝ
  value : List ℝ
  stash : List ℝ

variable {C S : Type}

/-- `resetValue` after the adjustment of the parameters (BaseDebyeSum.cpp:159-164). -/
noncomputable def resetValue (k : Cls C S) (c : C) (s : S) (d : Data) : Data :=
  { d with
    cache := k.cache c s
    avg := k.avg c s
    totocc := k.totocc s
    value := List.replicate (k.par c).hi.toNat 0 }

/-- `addPairContribution` (BaseDebyeSum.cpp:167-189). -/
noncomputable def addBond (k : Cls C S) (c : C) (d : Data) (t : Contrib Bond) : Data :=
  { d with value := addPair (k.par c) (d.cache.sf t.i0) (d.cache.sf t.i1) t.scale t.bond d.value }

/-- `stashPartialValue` (BaseDebyeSum.cpp:192-195). -/
def stashPartialValue (d : Data) : Data := { d with stash := d.value }

/-- `restorePartialValue` (BaseDebyeSum.cpp:198-203): swap, then clear. -/
def restorePartialValue (d : Data) : Data :=
  { d with
    value := d.stash
    stash := [] }

/-- The calculator as seen by the evaluators (BaseDebyeSum.cpp:49-63: no flags are set), without the value. -/
def Cls.control (k : Cls C S) : History.Calc C S Bond Unit where
  fullSum := false
  fixedIdx := false
  canStash := true
  hasPairMask := k.hasPairMask
  rule := k.rule
  count := k.count
  gen := k.gen
  use := k.use
  con _ _ _ _ _ := ()
  custom := k.custom
  diff := k.diff
  close _ _ := true

/-- Data after a full evaluation (PQEvaluator.cpp:96-128). -/
noncomputable def fullData (k : Cls C S) (c : C) (cpu ncpu : Int) (stru : S) (d : Data) : Data :=
  let c' := (k.custom stru c).1
  (basicTrace (k.rule (k.count stru) ncpu) (k.gen c' stru) false (k.use c' stru) (k.count stru)
    cpu ncpu).foldl (addBond k c') (resetValue k c' stru d)

/-- Data after an evaluation of the OPTIMIZED evaluator (PQEvaluator.cpp:180-298). -/
noncomputable def optData (k : Cls C S) (st : St C S Unit) (stru : S) (d : Data) : Data :=
  match fastChoice k.control st stru with
  | none => fullData k st.cfg st.cpuindex st.ncpu stru d
  | some (s0, df) =>
    let c' := (k.custom stru st.cfg).1
    let rem := removeTrace (k.gen st.cfg s0) false (k.use st.cfg st.cur) (k.count s0) df.pop0 st.cpuindex st.ncpu
    let d2 := resetValue k c' stru (stashPartialValue (rem.2.foldl (addBond k st.cfg) d))
    if (setStru k.control stru st).pqTick ≥ st.valTick then fullData k c' st.cpuindex st.ncpu stru d2
    else
      (addTrace (k.gen c' stru) false (k.use c' stru) (k.count stru) df.add1 rem.1 st.ncpu).foldl
        (addBond k c') (restorePartialValue d2)

/-- Data after `updateValue` of the evaluator in use (PQEvaluator.cpp:96-128, :180-298, :415-429). -/
noncomputable def evalData (k : Cls C S) (st : St C S Unit) (stru : S) (d : Data) : Data :=
  match st.evtype with
  | .optimized => optData k st stru d
  | .check =>
    let d1 := optData k st stru d
    let st1 := exec (optProg k.control st stru) st
    if st1.used = .basic then d1 else fullData k st1.cfg st.cpuindex st.ncpu stru d1
  | _ => fullData k st.cfg st.cpuindex st.ncpu stru d

/-- Calculator object: evaluator state and data. -/
structure DC (C S : Type) where
  h : St C S Unit
  d : Data

/-- `eval(stru)` (PairQuantity.cpp:61-66; `finishValue` does nothing, PairQuantity.hpp:96). -/
noncomputable def dcEval (k : Cls C S) (s : DC C S) (stru : S) : DC C S :=
  ⟨evalSt k.control s.h stru, evalData k s.h stru s.d⟩

/-- The effect of `resetValue` on the parameters and the ticker (DebyePDFCalculator.cpp:266-271). -/
def resetPars (k : Cls C S) (h : St C S Unit) : St C S Unit :=
  step k.control h (.configure (fun _ => (k.reset h.cur h.cfg).1) (k.reset h.cur h.cfg).2)

/-- One call; `setStructure` and a real change of evaluator reset the value (PairQuantity.cpp:69-75, :144-162);
configuration calls leave the caches as they are (BaseDebyeSum.cpp:102-150; none resets the value, so that flag has no effect). -/
noncomputable def dcStep (k : Cls C S) (s : DC C S) : POp C S → DC C S
  | .eval stru => dcEval k s stru
  | .setStructure stru => ⟨step k.control s.h (.setStructure stru), resetValue k (k.custom stru s.h.cfg).1 stru s.d⟩
  | .configure f clicks _ => ⟨step k.control s.h (.configure f clicks), s.d⟩
  | .setType t =>
    let h' := step k.control s.h (.setType t)
    if h'.evtype = s.h.evtype then ⟨h', s.d⟩ else ⟨resetPars k h', resetValue k (resetPars k h').cfg h'.cur s.d⟩

/-- State after a history. -/
noncomputable def dcRun (k : Cls C S) (s : DC C S) (ops : List (POp C S)) : DC C S := ops.foldl (dcStep k) s

/-- A calculator with configuration `c` (BaseDebyeSum.cpp:49-63, DebyePDFCalculator.cpp:38-66), the empty structure `e`, assigned to job
`cpuindex` of `ncpu` by `setupParallelRun` (0 of 1 otherwise). -/
noncomputable def dcInit (k : Cls C S) (c : C) (e : S) (cpuindex ncpu : Int) : DC C S :=
  ⟨{ History.init c e cpuindex ncpu with evtype := .optimized }, resetValue k c e ⟨⟨[], []⟩, [], 0, [], []⟩⟩

/-- `getF` (BaseDebyeSum.cpp:77-90). -/
noncomputable def getF (k : Cls C S) (s : DC C S) : Option (List ℝ) := Debye.getF (k.par s.h.cfg) s.d.avg s.d.totocc s.d.value

/-- A calculator that collects the values of `ncpu` jobs: `setStructure(stru)`, then `mergeParallelData` for each part
(PairQuantity.cpp:96-107, :362-374).  No state when a merge throws. -/
noncomputable def mergeParts (k : Cls C S) (s : DC C S) (stru : S) (ncpu : Int) (parts : List (List ℝ)) : Option (DC C S) :=
  let s' := dcStep k s (.setStructure stru)
  match Protocol.mergeAll ⟨s'.d.value, 0, 0⟩ ncpu parts with
  | ⟨_, some _⟩ => none
  | ⟨m, none⟩ => some ⟨s'.h, { s'.d with value := m.value }⟩

end Verif.DebyeHist
