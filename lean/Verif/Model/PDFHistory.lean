import Verif.Model.PDFCache
import Verif.Model.History
import Verif.Model.Protocol
import Mathlib.Algebra.Group.PUnit
/-
Model of a PDFCalculator object over a history of calls (src/diffpy/srreal/PDFCalculator.cpp with
PairQuantity.cpp and PQEvaluator.cpp): the arrays and caches of the class.  Tickers, last structure and
the choice between full and fast evaluation are those of Model/History.lean, run here without a value.
-/
namespace Verif.PDFHist
open Verif.Eval Verif.Diff Verif.History Verif.PDFGrid Verif.PDFCache

/-- A PDFCalculator and the structures it is used with.  `C` is the configuration, `S` the structures. -/
structure Cls (C S : Type) where
  /-- `hasPairMask()` (PairQuantity.cpp:392-396) -/
  hasPairMask : C → Bool
  /-- outcome of the load balance test (PQEvaluator.cpp:107) -/
  rule : Nat → Int → Bool
  /-- `countSites()` -/
  count : S → Nat
  /-- `getStructure() == emptyStructureAdapter()`, the structure object of a new calculator (PDFCalculator.cpp:44-53) -/
  isEmpty : S → Bool
  /-- pair mask for the structure -/
  use : C → S → Nat → Nat → Bool
  /-- `customPQConfig` -/
  custom : S → C → C × Bool
  /-- `StructureAdapter::diff` -/
  diff : S → S → SD
  /-- `mrmin`, `mrmax`, `mrstep`, `mmaxextension` -/
  par : C → Par ℝ
  /-- `extFromTerminationRipples()` (PDFCalculator.cpp:579-590) -/
  ripples : C → ℝ
  /-- `extFromPeakTails()` for the structure (PDFCalculator.cpp:593-604) -/
  tails : C → S → ℝ
  /-- `getPeakProfile()` -/
  prof : C → Prof ℝ
  /-- `cacheStructureData` (PDFCalculator.cpp:683-725) -/
  cache : C → S → Cache
  /-- the bond generator of the structure set to the range of the limits (PDFCalculator.cpp:506-510), with what
  `addPairContribution` reads from it: distance, peak width, multiplicity (:516-521) -/
  gen : C → S → Limits → Gen Debye.Bond

/-- Data members of PDFCalculator (PDFCalculator.hpp): mstructure_cache, mrlimits_cache, mvalue and
mstashedvalue. -/
structure Data where
  cache : Cache
  lim : Limits
  value : List ℝ
  stash : List ℝ
  stashClo : ℤ

variable {C S : Type}

/-- `cacheRlimitsData` for the configuration and the structure (PDFCalculator.cpp:728-754). -/
noncomputable def Cls.lim (k : Cls C S) (c : C) (s : S) : Limits := rlimits (k.par c) (k.ripples c) (k.tails c s)

/-- `resetValue` (PDFCalculator.cpp:486-503; the baseline is not part of the value). -/
noncomputable def resetValue (k : Cls C S) (c : C) (s : S) (d : Data) : Data :=
  { d with
    cache := k.cache c s
    lim := k.lim c s
    value := List.replicate (k.lim c s).count.toNat 0 }

/-- The peak of a bond (PDFCalculator.cpp:516-520). -/
def bondPeak (ca : Cache) (t : Contrib Debye.Bond) : Peak ℝ :=
  ⟨t.bond.dist, t.bond.fwhm, ca.sfSite t.i0 * ca.sfSite t.i1 * (t.bond.mult : ℝ) * (t.scale : ℝ)⟩

/-- `addPairContribution` (PDFCalculator.cpp:513-537). -/
noncomputable def addBond (k : Cls C S) (c : C) (d : Data) (t : Contrib Debye.Bond) : Data :=
  { d with value := addPeak (k.prof c) (k.par c).dr d.lim d.value (bondPeak d.cache t) }

/-- `stashPartialValue` (PDFCalculator.cpp:540-544). -/
def stashPartialValue (d : Data) : Data := { d with stash := d.value, stashClo := d.lim.clo }

/-- `restorePartialValue` (PDFCalculator.cpp:547-561). -/
def restorePartialValue (d : Data) : Data :=
  { d with
    value := restore d.stash d.stashClo d.lim.clo d.value
    stash := [] }

/-- The calculator as seen by the evaluators (PDFCalculator.cpp:65-90: no flags are set), without the value. -/
noncomputable def Cls.control (k : Cls C S) : History.Calc C S Debye.Bond Unit where
  fullSum := false
  fixedIdx := false
  canStash := true
  hasPairMask := k.hasPairMask
  rule := k.rule
  count := k.count
  gen c s := k.gen c s (k.lim c s)
  use := k.use
  con _ _ _ _ _ := ()
  custom := k.custom
  diff := k.diff
  close _ _ := true

/-- Data after a full evaluation (PQEvaluator.cpp:96-128). -/
noncomputable def fullData (k : Cls C S) (c : C) (cpu ncpu : Int) (stru : S) (d : Data) : Data :=
  let c' := (k.custom stru c).1
  let d' := resetValue k c' stru d
  (basicTrace (k.rule (k.count stru) ncpu) (k.gen c' stru d'.lim) false (k.use c' stru) (k.count stru)
    cpu ncpu).foldl (addBond k c') d'

/-- Data after an evaluation of the OPTIMIZED evaluator (PQEvaluator.cpp:180-298).  The generator for the removed bonds has
the limits of the calculator at that time. -/
noncomputable def optData (k : Cls C S) (st : St C S Unit) (stru : S) (d : Data) : Data :=
  match fastChoice k.control st stru with
  | none => fullData k st.cfg st.cpuindex st.ncpu stru d
  | some (s0, df) =>
    let c' := (k.custom stru st.cfg).1
    let rem := removeTrace (k.gen st.cfg s0 d.lim) false (k.use st.cfg st.cur) (k.count s0) df.pop0
      st.cpuindex st.ncpu
    let d1 := rem.2.foldl (addBond k st.cfg) d
    let d2 := resetValue k c' stru (stashPartialValue d1)
    if (setStru k.control stru st).pqTick ≥ st.valTick then fullData k c' st.cpuindex st.ncpu stru d2
    else
      (addTrace (k.gen c' stru d2.lim) false (k.use c' stru) (k.count stru) df.add1 rem.1 st.ncpu).foldl
        (addBond k c') (restorePartialValue d2)

/-- Data after `updateValue` of the evaluator in use (PQEvaluator.cpp:96-128, :180-298, :415-429). -/
noncomputable def evalData (k : Cls C S) (st : St C S Unit) (stru : S) (d : Data) : Data :=
  match st.evtype with
  | .optimized => optData k st stru d
  | .check =>
    let d1 := optData k st stru d
    let st1 := exec (optProg k.control st stru) st
    if st1.used = .basic then d1 else fullData k st1.cfg st.cpuindex st.ncpu stru d1
  | _ => fullData k st.cfg st.cpuindex st.ncpu stru d

/-- Calculator object: evaluator state and data. -/
structure PC (C S : Type) where
  h : St C S Unit
  d : Data

/-- `eval(stru)` (PairQuantity.cpp:61-66; `finishValue` does nothing, PairQuantity.hpp:96). -/
noncomputable def pcEval (k : Cls C S) (s : PC C S) (stru : S) : PC C S :=
  ⟨evalSt k.control s.h stru, evalData k s.h stru s.d⟩

/-- Calls on a calculator.  A configuration call has an effect on the configuration and may click the ticker; `resets` says that it
resets the value of a calculator that still has its initial structure (`setQmax`, `setRmax`, `setRstep`: PDFCalculator.cpp:281, :323, :332). -/
inductive POp (C S : Type)
  | eval (stru : S)
  | setStructure (stru : S)
  | configure (f : C → C) (clicks resets : Bool)
  | setType (t : EvType)

/-- The same call for the evaluator model. -/
def POp.op : POp C S → Op C S
  | .eval stru => .eval stru
  | .setStructure stru => .setStructure stru
  | .configure f clicks _ => .configure f clicks
  | .setType t => .setType t

/-- One call; `setStructure` and a real change of evaluator reset the value (PairQuantity.cpp:69-75, :144-162);
configuration calls leave the caches as they are, except that some reset the value of a calculator with its initial structure
(PDFCalculator.cpp:44-53, :275-347). -/
noncomputable def pcStep (k : Cls C S) (s : PC C S) : POp C S → PC C S
  | .eval stru => pcEval k s stru
  | .setStructure stru => ⟨step k.control s.h (.setStructure stru), resetValue k (k.custom stru s.h.cfg).1 stru s.d⟩
  | .configure f clicks resets =>
    ⟨step k.control s.h (.configure f clicks),
      if resets && k.isEmpty s.h.cur then resetValue k (f s.h.cfg) s.h.cur s.d else s.d⟩
  | .setType t =>
    ⟨step k.control s.h (.setType t),
      if (setTypeSt k.control t s.h).evtype = s.h.evtype then s.d else resetValue k s.h.cfg s.h.cur s.d⟩

/-- State after a history. -/
noncomputable def pcRun (k : Cls C S) (s : PC C S) (ops : List (POp C S)) : PC C S := ops.foldl (pcStep k) s

/-- A new calculator (PDFCalculator.cpp:65-90) with configuration `c`, the empty structure `e`, assigned to job `cpuindex` of
`ncpu` by `setupParallelRun` (0 of 1 otherwise). -/
noncomputable def pcInit (k : Cls C S) (c : C) (e : S) (cpuindex ncpu : Int) : PC C S :=
  ⟨{ History.init c e cpuindex ncpu with evtype := .optimized }, resetValue k c e ⟨⟨[], 0, 0, 0⟩, ⟨0, 0, 0, 0⟩, [], [], 0⟩⟩

/-- The calculator for the output functions: current parameters, cached limits, value. -/
noncomputable def PC.out (k : Cls C S) (s : PC C S) : PDFGrid.Calc ℝ := ⟨k.par s.h.cfg, s.d.lim, s.d.value⟩

/-- `getRDF` (PDFCalculator.cpp:126-131, :187-208). -/
noncomputable def getRDF (k : Cls C S) (s : PC C S) : Option (List ℝ) := (s.out k).getRDF s.d.cache.rdfScale

/-- A calculator that collects the values of `ncpu` jobs: `setStructure(stru)`, then `mergeParallelData` for each part
(PairQuantity.cpp:96-107, :362-374).  No state when a merge throws. -/
noncomputable def mergeParts (k : Cls C S) (s : PC C S) (stru : S) (ncpu : Int) (parts : List (List ℝ)) : Option (PC C S) :=
  let s' := pcStep k s (.setStructure stru)
  match Protocol.mergeAll ⟨s'.d.value, 0, 0⟩ ncpu parts with
  | ⟨_, some _⟩ => none
  | ⟨m, none⟩ => some ⟨s'.h, { s'.d with value := m.value }⟩

end Verif.PDFHist
