import Verif.Model.PDFHistory
import Verif.Model.StruGeom
import Verif.Model.Fft
/-
Model of the output functions of a PDFCalculator object over a history of calls, with its baseline (src/diffpy/srreal/PDFCalculator.cpp):
the calculator of Model/PDFHistory.lean, the baseline that `resetValue` updates, and the Fourier transformations of Model/Fft.lean.
-/
namespace Verif.PDFHist
open Verif.Eval Verif.Diff Verif.KindDiff Verif.History Verif.PDFGrid Verif.PDFCache Verif.Geo

/-- The baseline object (PDFBaseline.hpp, LinearBaseline.cpp:60-75, ZeroBaseline.cpp): one of type "linear" with its slope, or any other. -/
inductive Baseline
  | linear (slope : ℝ)
  | other (f : ℝ → ℝ)

/-- `baseline(r)` (LinearBaseline.cpp:60-63). -/
def Baseline.fn : Baseline → ℝ → ℝ
  | .linear slope, r => slope * r
  | .other f, r => f r

/-- The part of `resetValue` that concerns the baseline (PDFCalculator.cpp:491-500). -/
noncomputable def Baseline.update (ca : Cache) (density : ℝ) : Baseline → Baseline
  | .linear _ => .linear (ca.slope density)
  | .other f => .other f

/-- Occupancies times multiplicities over the atoms of a structure (StructureAdapter.cpp:36-45), given the multiplicities. -/
def occSum (mult : ℕ → ℕ) : List Atom → ℕ → ℝ
  | [], _ => 0
  | a :: l, i => (a.occupancy : ℝ) * (mult i : ℝ) + occSum mult l (i + 1)

/-- `numberDensity()` (StructureAdapter.cpp:48-51, PeriodicStructureAdapter.cpp:55-60), given the multiplicities of the sites. -/
noncomputable def densityOf (mult : ℕ → ℕ) (x : RStru) : ℝ :=
  match x.kind with
  | .atomic => 0
  | .periodic L => occSum mult x.atoms 0 / L.volume
  | .crystal L _ => occSum mult x.atoms 0 / L.volume

variable {C S : Type}

/-- Calculator object with its baseline. -/
structure OC (C S : Type) where
  pc : PC C S
  base : Baseline

/-- Calls: those of Model/PDFHistory.lean and `setBaseline` (PDFCalculator.cpp:417-427; no click). -/
inductive OOp (C S : Type)
  | call (op : POp C S)
  | setBaseline (b : Baseline)

/-- Whether the call goes through `resetValue` (PairQuantity.cpp:69-75, :144-162, PDFCalculator.cpp:281, :323, :332). -/
noncomputable def resets (k : Cls C S) (s : PC C S) : POp C S → Bool
  | .eval _ => true
  | .setStructure _ => true
  | .configure _ _ r => r && k.isEmpty s.h.cur
  | .setType t => decide (¬ (setTypeSt k.control t s.h).evtype = s.h.evtype)

/-- One call; `density` is `numberDensity()` of a structure.  The baseline is that of the last reset, which is
the one for the structure data of the calculator (PDFCalculator.cpp:486-503). -/
noncomputable def ocStep (k : Cls C S) (density : S → ℝ) (s : OC C S) : OOp C S → OC C S
  | .call op =>
    let p := pcStep k s.pc op
    ⟨p, if resets k s.pc op then s.base.update p.d.cache (density p.h.cur) else s.base⟩
  | .setBaseline b => ⟨s.pc, b⟩

/-- State after a history. -/
noncomputable def ocRun (k : Cls C S) (density : S → ℝ) (s : OC C S) (ops : List (OOp C S)) : OC C S := ops.foldl (ocStep k density) s

/-- A new calculator (PDFCalculator.cpp:65-90) with baseline `b`. -/
noncomputable def ocInit (k : Cls C S) (density : S → ℝ) (c : C) (e : S) (b : Baseline) (cpuindex ncpu : Int) : OC C S :=
  let p := pcInit k c e cpuindex ncpu
  ⟨p, b.update p.d.cache (density e)⟩

/-- `eval(stru)`. -/
noncomputable def ocEval (k : Cls C S) (density : S → ℝ) (s : OC C S) (stru : S) : OC C S := ocStep k density s (.call (.eval stru))

/-- `getPDF()` (PDFCalculator.cpp:118-123, :151-184) with the present `mqmin`, `mqmax` and product of envelopes. -/
noncomputable def getPDF (k : Cls C S) (s : OC C S) (qmin mqmax : ℝ) (envelope : ℝ → ℝ) : Option (List ℝ) :=
  Fft.getPDF (s.pc.out k) qmin mqmax s.pc.d.cache.rdfScale s.base.fn envelope

/-- `getF()` (PDFCalculator.cpp:142-148, :226-236). -/
noncomputable def getF (k : Cls C S) (s : OC C S) (mqmax : ℝ) : Option (List ℝ) :=
  Fft.getF (s.pc.out k) mqmax s.pc.d.cache.rdfScale s.base.fn

/-- Collecting the values of parallel jobs (PairQuantity.cpp:96-107, :362-374), with the baseline set by `setStructure`. -/
noncomputable def ocMerge (k : Cls C S) (density : S → ℝ) (s : OC C S) (stru : S) (ncpu : Int) (parts : List (List ℝ)) : Option (OC C S) :=
  (mergeParts k s.pc stru ncpu parts).map fun p => ⟨p, (ocStep k density s (.call (.setStructure stru))).base⟩

end Verif.PDFHist
