import Mathlib.Logic.Basic
/-
Model of the tickers of PDFCalculator and DebyePDFCalculator with their components: PeakWidthModel (PeakWidthModel.cpp),
ScatteringFactorTable (ScatteringFactorTable.cpp) and PeakProfile (PeakProfile.cpp) objects, which are held by shared
pointers and may be held by several calculators and changed by their own setters.  Tickers are numbers drawn from the
process-wide click counter (justified by C01).
-/
namespace Verif.Composite

/-- A component object: its data and `mticker` (PeakWidthModel.hpp:56, ScatteringFactorTable.hpp:66, PeakProfile.hpp:58). -/
structure Comp (V : Type) where
  val : V
  tick : Nat

/-- The calculator classes. -/
inductive Kind | pdf | debye
deriving DecidableEq

/-- A calculator: its own settings and the members that matter for `ticker()`.  Pointers are numbers of components. -/
structure Calc (C : Type) where
  kind : Kind
  cfg : C
  /-- `mticker` (PairQuantity.hpp:124) -/
  own : Nat
  /-- `mpwmodel` and `mprivateticker` of PeakWidthModelOwner (PeakWidthModel.hpp:86-89) -/
  wptr : Nat
  wtick : Nat
  /-- `msftable` and `mprivateticker` of ScatteringFactorTableOwner (ScatteringFactorTable.hpp:95-98) -/
  tptr : Nat
  ttick : Nat
  /-- `mpeakprofile` (PDFCalculator.hpp), not used by Debye calculators -/
  pptr : Nat
  /-- `mvalue_ticker` of the evaluator (PQEvaluator.hpp:85) -/
  valTick : Nat

/-- All objects of the process. -/
structure World (V C : Type) where
  clock : Nat
  comps : Nat → Comp V
  ncomps : Nat
  calcs : Nat → Calc C

variable {V C : Type} [DecidableEq V] [DecidableEq C]

/-- Replace one component. -/
def World.setComp (w : World V C) (id : Nat) (x : Comp V) : World V C :=
  { w with comps := fun k => if k = id then x else w.comps k }

/-- Replace one calculator. -/
def World.setCalc (w : World V C) (c : Nat) (x : Calc C) : World V C :=
  { w with calcs := fun k => if k = c then x else w.calcs k }

/-- The click counter after one click. -/
def World.tickClock (w : World V C) : World V C := { w with clock := w.clock + 1 }

/-- A new component object; `clicks` if its constructor calls setters that click (GaussianProfile.cpp:37-38). -/
def World.alloc (w : World V C) (v : V) (clicks : Bool) : World V C :=
  let w1 := if clicks then w.tickClock else w
  { w1.setComp w.ncomps ⟨v, if clicks then w1.clock else 0⟩ with ncomps := w.ncomps + 1 }

/-- `PDFCalculator::ticker()` (PDFCalculator.cpp:105-114) and `DebyePDFCalculator::ticker()` (DebyePDFCalculator.cpp:87-94,
BaseDebyeSum.cpp:69-73), with `PeakWidthModelOwner::ticker()` (PeakWidthModel.cpp:63-67) and
`ScatteringFactorTableOwner::ticker()` (ScatteringFactorTable.cpp:155-159).  The owners and the calculator keep the
maximum (`updateFrom`). -/
def refresh (w : World V C) (x : Calc C) : Calc C :=
  let wt := max x.wtick (w.comps x.wptr).tick
  let tt := max x.ttick (w.comps x.tptr).tick
  let o := max (max x.own wt) tt
  { x with wtick := wt, ttick := tt, own := match x.kind with
      | .pdf => max o (w.comps x.pptr).tick
      | .debye => o }

/-- `pq.ticker() >= mvalue_ticker` (PQEvaluator.cpp:186): the value has to be recalculated completely. -/
def needsUpdate (w : World V C) (c : Nat) : Bool := decide ((refresh w (w.calcs c)).own ≥ (w.calcs c).valTick)

/-- Calls. -/
inductive Op (V C : Type)
  /-- construction of a component -/
  | create (v : V) (clicks : Bool)
  /-- `clone()` of a component: data and ticker are copied (GaussianProfile.cpp:49-53 and the like) -/
  | clone (id : Nat)
  /-- a setter of a component: setDelta1, setDelta2, setQbroad, setQbroad_seperable (JeongPeakWidth.cpp:98-142), setWidth
  (ConstantPeakWidth.cpp:118-122), setPrecision (PeakProfile.cpp:44-48), setCustomAs, resetCustom, resetAll
  (ScatteringFactorTable.cpp:65-100) -/
  | set (id : Nat) (f : V → V)
  /-- `setPeakWidthModel` (PeakWidthModel.cpp:36-41) -/
  | setWidth (c id : Nat)
  /-- `setPeakWidthModelByType` (PeakWidthModel.cpp:44-48) -/
  | setWidthByType (c : Nat) (v : V) (clicks : Bool)
  /-- `setScatteringFactorTable` (ScatteringFactorTable.cpp:116-122) -/
  | setTable (c id : Nat)
  /-- `setScatteringFactorTableByType` (ScatteringFactorTable.cpp:125-130) -/
  | setTableByType (c : Nat) (v : V) (clicks : Bool)
  /-- `setPeakProfile` (PDFCalculator.cpp:371-376) -/
  | setProfile (c id : Nat)
  /-- `setPeakProfileByType` (PDFCalculator.cpp:379-387); `v` is the new profile after `setPrecision` -/
  | setProfileByType (c : Nat) (v : V) (clicks : Bool)
  /-- a setter of the calculator itself that clicks when it changes something (C45 lists the exceptions) -/
  | configure (c : Nat) (f : C → C)
  /-- `ticker()` -/
  | ticker (c : Nat)
  /-- `eval`: ends with `mvalue_ticker.click()` (PQEvaluator.cpp:127, :297) -/
  | eval (c : Nat)
  /-- assignment through the reference that `getPeakWidthModel()` returns (PeakWidthModel.cpp:51-54) -/
  | assignWidth (c id : Nat)

/-- Effect of a call.  Calls with a pointer to no object do nothing (`ensureNonNull` throws). -/
def step (w : World V C) : Op V C → World V C
  | .create v clicks => w.alloc v clicks
  | .clone id => if id < w.ncomps then { w.setComp w.ncomps (w.comps id) with ncomps := w.ncomps + 1 } else w
  | .set id f =>
    if id < w.ncomps then
      let x := w.comps id
      if f x.val ≠ x.val then w.tickClock.setComp id ⟨f x.val, w.clock + 1⟩ else w
    else w
  | .setWidth c id =>
    if id < w.ncomps then
      let x := w.calcs c
      if x.wptr ≠ id then w.tickClock.setCalc c { x with wptr := id, wtick := w.clock + 1 } else w
    else w
  | .setWidthByType c v clicks =>
    let w1 := (w.alloc v clicks).tickClock
    w1.setCalc c { w.calcs c with wptr := w.ncomps, wtick := w1.clock }
  | .setTable c id =>
    if id < w.ncomps then
      let x := w.calcs c
      if x.tptr ≠ id then w.tickClock.setCalc c { x with tptr := id, ttick := w.clock + 1 } else w
    else w
  | .setTableByType c v clicks =>
    let w1 := (w.alloc v clicks).tickClock
    w1.setCalc c { w.calcs c with tptr := w.ncomps, ttick := w1.clock }
  | .setProfile c id =>
    if id < w.ncomps then
      let x := w.calcs c
      if x.pptr ≠ id then w.tickClock.setCalc c { x with pptr := id, own := w.clock + 1 } else w
    else w
  | .setProfileByType c v clicks =>
    let w1 := (w.alloc v clicks).tickClock
    w1.setCalc c { w.calcs c with pptr := w.ncomps, own := w1.clock }
  | .configure c f =>
    let x := w.calcs c
    if f x.cfg ≠ x.cfg then w.tickClock.setCalc c { x with cfg := f x.cfg, own := w.clock + 1 } else w
  | .ticker c => w.setCalc c (refresh w (w.calcs c))
  | .eval c => w.tickClock.setCalc c { refresh w (w.calcs c) with valTick := w.clock + 1 }
  | .assignWidth c id => if id < w.ncomps then w.setCalc c { w.calcs c with wptr := id } else w

/-- A sequence of calls. -/
def run (w : World V C) (ops : List (Op V C)) : World V C := ops.foldl step w

end Verif.Composite
