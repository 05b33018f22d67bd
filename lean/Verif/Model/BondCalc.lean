import Verif.Model.History
import Verif.Model.BondGen
import Mathlib.Data.List.Sort
import Mathlib.Analysis.SpecialFunctions.Trigonometric.Inverse
/-
Model of BondCalculator (src/diffpy/srreal/BondCalculator.cpp).

The list handling (sorting, in-place merge, set difference, stash) is modelled on the arrays of the
class; the tickers, the last structure and the choice between full and fast evaluation are those of
Model/History.lean, whose abstract value is kept beside as a ghost.  Numbers are any ordered type
`R` (the reals in the statements, integers in computed examples).
-/
namespace Verif.BondCalc
open Verif.Eval Verif.Diff Verif.History Verif.R3

/-- `BondCalculator::BondEntry` (BondCalculator.hpp:61-82). -/
@[ext] structure Entry (R : Type) where
  distance : R
  site0 : Nat
  site1 : Nat
  direction0 : R
  direction1 : R
  direction2 : R
deriving DecidableEq, Repr

/-- What the bond generator reports of a bond besides the site indices: `distance()`, `r01()`. -/
structure BData (R : Type) where
  distance : R
  r0 : R
  r1 : R
  r2 : R
deriving DecidableEq

section Lists
variable {R : Type} [LinearOrder R]

/-- `BondOp::compare` (BondCalculator.cpp:45-62). -/
def compare (be0 be1 : Entry R) : Bool :=
  if be0.distance < be1.distance then true
  else if be0.distance > be1.distance then false
  else if be0.site0 < be1.site0 then true
  else if be0.site0 > be1.site0 then false
  else if be0.site1 < be1.site1 then true
  else if be0.site1 > be1.site1 then false
  else if be0.direction0 < be1.direction0 then true
  else if be0.direction0 > be1.direction0 then false
  else if be0.direction1 < be1.direction1 then true
  else if be0.direction1 > be1.direction1 then false
  else if be0.direction2 < be1.direction2 then true
  else if be0.direction2 > be1.direction2 then false
  else false

/-- `BondOp::reverse_compare` (BondCalculator.cpp:65-70). -/
def reverseCompare (be0 be1 : Entry R) : Bool := compare be1 be0

/-- `sort(first, last, BondOp::compare)` (BondCalculator.cpp:238-239).  The order is total (see
`compare_total`), so the result of any sorting algorithm is the same. -/
def bsort (l : List (Entry R)) : List (Entry R) :=
  l.insertionSort fun a b => compare b a = false

/-- `std::merge` on reversed ranges, writing into the buffer it reads from (BondCalculator.cpp:78-80).
`i` entries of the buffer and `j` entries of `src` are still to be merged; the next entry is written at
position `i + j - 1`.  The two last cases of the loop are the final `copy` calls. -/
def bmergeLoop (src : List (Entry R)) : Nat → Nat → List (Entry R) → List (Entry R)
  | i + 1, j + 1, buf =>
    match buf[i]?, src[j]? with
    | some b, some s =>
      if reverseCompare s b then bmergeLoop src (i + 1) j (buf.set (i + 1 + j) s)
      else bmergeLoop src i (j + 1) (buf.set (i + 1 + j) b)
    | _, _ => buf
  | i + 1, 0, buf =>
    match buf[i]? with
    | some b => bmergeLoop src i 0 (buf.set i b)
    | none => buf
  | 0, j + 1, buf =>
    match src[j]? with
    | some s => bmergeLoop src 0 j (buf.set j s)
    | none => buf
  | 0, 0, buf => buf
termination_by i j => i + j

/-- `BondOp::bmerge` (BondCalculator.cpp:73-81); `fill` is the value of a new element after
`resize`. -/
def bmerge (fill : Entry R) (dst src : List (Entry R)) : List (Entry R) :=
  bmergeLoop src dst.length src.length (dst ++ List.replicate src.length fill)

/-- `std::set_difference` with `BondOp::compare` (BondCalculator.cpp:242-244). -/
def setDifference : List (Entry R) → List (Entry R) → List (Entry R)
  | [], _ => []
  | l, [] => l
  | a :: l, b :: m =>
    if compare a b then a :: setDifference l (b :: m)
    else if compare b a then setDifference (a :: l) m
    else setDifference l m
termination_by l m => l.length + m.length

end Lists

/-- Data members of BondCalculator (BondCalculator.hpp:107-114): mbonds, mpopbonds, maddbonds,
mstashedvalue and mvalue. -/
structure Data (R : Type) where
  bonds : List (Entry R)
  pop : List (Entry R)
  add : List (Entry R)
  stashBonds : List (Entry R)
  stashPop : List (Entry R)
  value : List R
deriving DecidableEq

section Steps
variable {R : Type} [LinearOrder R]

/-- `BondOp::entryFrom` (BondCalculator.cpp:84-95). -/
def entryFrom (i0 i1 : Nat) (b : BData R) : Entry R := ⟨b.distance, i0, i1, b.r0, b.r1, b.r2⟩

/-- `BondCalculator::resetValue` (BondCalculator.cpp:199-206). -/
def resetValue (d : Data R) : Data R := { d with value := [], bonds := [], add := [], pop := [] }

/-- `BondCalculator::addPairContribution` (BondCalculator.cpp:209-220); `pass` is the outcome of
`checkConeFilters` for the bond. -/
def addPairContribution (pass : BData R → Bool) (d : Data R) (t : Contrib (BData R)) : Data R :=
  if !pass t.bond then d
  else if t.scale > 0 then { d with add := d.add ++ [entryFrom t.i0 t.i1 t.bond] }
  else { d with pop := d.pop ++ [entryFrom t.i0 t.i1 t.bond] }

/-- `BondCalculator::finishValue` (BondCalculator.cpp:234-251). -/
def finishValue (fill : Entry R) (parallel : Bool) (d : Data R) : Data R :=
  let pop := bsort d.pop
  let add := bsort d.add
  if parallel then { d with pop := pop, add := add }
  else
    let rest := setDifference d.bonds pop
    let bonds := if rest.isEmpty then add else bmerge fill rest add
    { d with bonds := bonds, value := bonds.map Entry.distance, pop := [], add := [] }

/-- `BondCalculator::stashPartialValue` (BondCalculator.cpp:254-259): two swaps. -/
def stashPartialValue (d : Data R) : Data R :=
  { d with stashBonds := d.bonds, bonds := d.stashBonds, stashPop := d.pop, pop := d.stashPop }

/-- `BondCalculator::restorePartialValue` (BondCalculator.cpp:262-268): two swaps, then the stash is
cleared. -/
def restorePartialValue (d : Data R) : Data R :=
  { d with bonds := d.stashBonds, pop := d.stashPop, stashBonds := [], stashPop := [] }

/-- `BondCalculator::getParallelData` (BondCalculator.cpp:189-195): the two serialised arrays. -/
def getParallelData (d : Data R) : List (Entry R) × List (Entry R) := (d.pop, d.add)

/-- `BondCalculator::executeParallelMerge` (BondCalculator.cpp:223-231). -/
def executeParallelMerge (fill : Entry R) (d : Data R) (p : List (Entry R) × List (Entry R)) : Data R :=
  { d with pop := bmerge fill d.pop p.1, add := bmerge fill d.add p.2 }

/-- The parts of all jobs merged in turn into a calculator whose value was reset, then
`finishValue` (PairQuantity.cpp:96-107). -/
def mergeAll (fill : Entry R) (d : Data R) (parts : List (List (Entry R) × List (Entry R))) : Data R :=
  finishValue fill false (parts.foldl (executeParallelMerge fill) (resetValue d))

end Steps

/-- A BondCalculator with the structures it is used on: `C` is the configuration (r limits, masks,
cone filters), `pass` the cone filter, the other fields as in `History.Calc`. -/
structure Cls (C S R : Type) where
  hasPairMask : C → Bool
  rule : Nat → Int → Bool
  count : S → Nat
  gen : C → S → Gen (BData R)
  use : C → S → Nat → Nat → Bool
  pass : C → BData R → Bool
  custom : S → C → C × Bool
  diff : S → S → SD

section Joint
variable {C S R : Type} [LinearOrder R]

/-- The calculator as seen by the evaluators: flags USEFULLSUM and FIXEDSITEINDEX are set
(BondCalculator.cpp:102-108).  The ghost value counts entries: a contribution adds 1 to the count of
its entry when the bond passes the filter. -/
def Cls.calc (k : Cls C S R) : Calc C S (BData R) (Entry R → Int) where
  fullSum := true
  fixedIdx := true
  canStash := true
  hasPairMask := k.hasPairMask
  rule := k.rule
  count := k.count
  gen := k.gen
  use := k.use
  con c _ i j b := fun e => if k.pass c b = true ∧ entryFrom i j b = e then 1 else 0
  custom := k.custom
  diff := k.diff
  close _ _ := true   -- mvalue is empty in both runs of the CHECK evaluator before finishValue

/-- Calculator object: evaluator state (with ghost value) and the arrays. -/
structure BC (C S R : Type) where
  h : St C S (Entry R → Int)
  d : Data R

/-- Array changes of a full evaluation (PQEvaluator.cpp:96-128): `setStructure` resets, then all
contributions are added. -/
def fullData (k : Cls C S R) (c : C) (cpu ncpu : Int) (stru : S) (d : Data R) : Data R :=
  let c' := (k.custom stru c).1
  (basicTrace (k.rule (k.count stru) ncpu) (k.gen c' stru) true (k.use c' stru) (k.count stru)
    cpu ncpu).foldl (addPairContribution (k.pass c')) (resetValue d)

/-- Array changes of the OPTIMIZED evaluator after its decision (PQEvaluator.cpp:184-298), before
`finishValue`. -/
def optData (k : Cls C S R) (st : St C S (Entry R → Int)) (stru : S) (d : Data R) : Data R :=
  match fastChoice k.calc st stru with
  | none => fullData k st.cfg st.cpuindex st.ncpu stru d
  | some (s0, df) =>
    let c' := (k.custom stru st.cfg).1
    let rem := removeTrace (k.gen st.cfg s0) true (k.use st.cfg st.cur) (k.count s0) df.pop0
      st.cpuindex st.ncpu
    let d1 := rem.2.foldl (addPairContribution (k.pass st.cfg)) d
    let d2 := resetValue (stashPartialValue d1)
    if (setStru k.calc stru st).pqTick ≥ st.valTick then fullData k c' st.cpuindex st.ncpu stru d2
    else
      (addTrace (k.gen c' stru) true (k.use c' stru) (k.count stru) df.add1 rem.1 st.ncpu).foldl
        (addPairContribution (k.pass c')) (restorePartialValue d2)

/-- Array changes of `updateValue` of the evaluator in use (PQEvaluator.cpp:96-128, :180-298,
:415-429). -/
def evalData (k : Cls C S R) (st : St C S (Entry R → Int)) (stru : S) (d : Data R) : Data R :=
  match st.evtype with
  | .optimized => optData k st stru d
  | .check =>
    let d1 := optData k st stru d
    let st1 := exec (optProg k.calc st stru) st
    if st1.used = .basic then d1 else fullData k st1.cfg st.cpuindex st.ncpu stru d1
  | _ => fullData k st.cfg st.cpuindex st.ncpu stru d

/-- The CHECK evaluator throws when, after a fast update, the results saved before `finishValue` differ
from those of the full evaluation (PQEvaluator.cpp:415-429).  Only one of the comparisons of
`pqresults_bondcalculator::compare` (PQEvaluator.cpp:363-386) is modelled, `sites0()`; any difference
found makes it throw. -/
def checkThrows (k : Cls C S R) (s : BC C S R) (stru : S) : Bool :=
  let st1 := exec (optProg k.calc s.h stru) s.h
  let saved := optData k s.h stru s.d
  let now := fullData k st1.cfg s.h.cpuindex s.h.ncpu stru saved
  decide (s.h.evtype = .check) && decide (st1.used ≠ .basic) &&
    decide (saved.bonds.map Entry.site0 ≠ now.bonds.map Entry.site0)

/-- `eval(stru)` (PairQuantity.cpp:61-66). -/
def bcEval (k : Cls C S R) (fill : Entry R) (s : BC C S R) (stru : S) : BC C S R :=
  ⟨evalSt k.calc s.h stru, finishValue fill (decide (s.h.ncpu > 1)) (evalData k s.h stru s.d)⟩

/-- Calls on a BondCalculator. -/
inductive BOp (C S : Type)
  | eval (stru : S)
  | setStructure (stru : S)
  | configure (f : C → C) (clicks : Bool)
  | setType (t : EvType)

/-- The same call for the evaluator model. -/
def BOp.op : BOp C S → Op C S
  | .eval stru => .eval stru
  | .setStructure stru => .setStructure stru
  | .configure f clicks => .configure f clicks
  | .setType t => .setType t

/-- One call; `setStructure` and a real change of evaluator reset the value (PairQuantity.cpp:69-75,
:144-162). -/
def bcStep (k : Cls C S R) (fill : Entry R) (s : BC C S R) : BOp C S → BC C S R
  | .eval stru => bcEval k fill s stru
  | .setStructure stru => ⟨step k.calc s.h (.setStructure stru), resetValue s.d⟩
  | .configure f clicks => ⟨step k.calc s.h (.configure f clicks), s.d⟩
  | .setType t =>
    ⟨step k.calc s.h (.setType t),
      if (setTypeSt k.calc t s.h).evtype = s.h.evtype then s.d else resetValue s.d⟩

/-- State after a history. -/
def bcRun (k : Cls C S R) (fill : Entry R) (s : BC C S R) (ops : List (BOp C S)) : BC C S R :=
  ops.foldl (bcStep k fill) s

/-- A new calculator (BondCalculator.cpp:102-108): evaluator OPTIMIZED. -/
def bcInit (c : C) (e : S) : BC C S R := ⟨{ init c e 0 1 with evtype := .optimized }, ⟨[], [], [], [], [], []⟩⟩

end Joint

/-! ## Cone filters -/

/-- Cone filters and ticker (BondCalculator.hpp:105-106; the two parallel arrays as one list of
pairs). -/
structure Cones where
  cones : List (V3 × ℝ)
  clicks : Nat

/-- `BondCalculator::filterCone` (BondCalculator.cpp:168-177): the new state, or no state when
`ensureEpsilonPositive` throws (validators.cpp: the value is not above the tolerance 2^-26). -/
noncomputable def filterCone (s : Cones) (axis : V3) (degrees : ℝ) : Cones × Bool :=
  open Classical in
  if V3.norm axis > BondGen.sqrtEps then
    (⟨s.cones ++ [(V3.smul (1 / V3.norm axis) axis, degrees)], s.clicks + 1⟩, true)
  else (s, false)

/-- `BondCalculator::filterOff` (BondCalculator.cpp:180-185). -/
def filterOff (s : Cones) : Cones := ⟨[], if s.cones.isEmpty then s.clicks else s.clicks + 1⟩

/-- Loop of `checkConeFilters` (BondCalculator.cpp:283-291). -/
def coneLoop (ru : V3) : List (V3 × ℝ) → Prop
  | [] => False
  | (ax, deg) :: rest =>
    if 180 ≤ deg then True
    else if 180 / Real.pi * Real.arccos (V3.dot ru ax) ≤ deg then True
    else coneLoop ru rest

/-- `BondCalculator::checkConeFilters` (BondCalculator.cpp:278-292). -/
def checkConeFilters (s : Cones) (ru : V3) : Prop := if s.cones.isEmpty then True else coneLoop ru s.cones

/-- The filter applied to a bond with direction `r01` of length `dist` (BondCalculator.cpp:214-217). -/
noncomputable def bondPasses (s : Cones) (r01 : V3) (dist : ℝ) : Prop :=
  checkConeFilters s (V3.smul (1 / dist) r01)

end Verif.BondCalc
