import Mathlib.Algebra.Order.Floor.Ring
import Mathlib.Algebra.Order.Field.Basic
import Mathlib.Algebra.Order.Ring.Abs
import Mathlib.Data.List.Basic
/-
Model of the r-grid, the calculation range and the output arrays of the PDF calculators:
src/diffpy/srreal/PDFUtils.ipp and src/diffpy/srreal/PDFCalculator.cpp.  Numbers are elements of
an ordered field with floor (ℝ for users, ℚ in examples); rounding of doubles is not modelled.
An iterator or index out of range is the result `none`.
-/
namespace Verif.PDFGrid

variable {K : Type} [Field K] [LinearOrder K] [FloorRing K]

/-- `SQRT_DOUBLE_EPS` (mathutils.hpp:34), exactly 2^-26. -/
def eps : K := 1 / 2 ^ 26

/-- `pdfutils_rminSteps(rmin, rstep)` (PDFUtils.ipp:87-94). -/
def rminSteps (rmin dr : K) : ℤ :=
  let rv := ⌈rmin / dr⌉
  if |rmin - ((rv - 1 : ℤ) : K) * dr| ≤ eps then rv - 1 else rv

/-- `pdfutils_rmaxSteps(rmax, rstep)` (PDFUtils.ipp:107-112). -/
def rmaxSteps (rmax dr : K) : ℤ := ⌈rmax / dr⌉

/-- The integers visited by `for (int k = a; k < b; ++k)`. -/
def intRange (a b : ℤ) : List ℤ := (List.range (b - a).toNat).map (fun k : Nat => a + (k : ℤ))

/-- `pdfutils_getRgrid` (PDFUtils.ipp:71-84), also `getExtendedRgrid`
(PDFCalculator.cpp:239-251) with the extended limits. -/
def rgrid (rmin rmax dr : K) : List K :=
  (intRange (rminSteps rmin dr) (rmaxSteps rmax dr)).map (fun n : ℤ => (n : K) * dr)

/-- `pdfutils_qminSteps(qmin, qstep)` (PDFUtils.ipp:40-48). -/
def qminSteps (qmin dq : K) : ℤ :=
  if dq ≤ 0 then 0
  else
    let rv := ⌈qmin / dq⌉
    if |qmin - ((rv - 1 : ℤ) : K) * dq| ≤ eps then rv - 1 else rv

/-- `pdfutils_qmaxSteps` (PDFUtils.ipp:61-68). -/
def qmaxSteps (qmax dq : K) : ℤ := if dq ≤ 0 then 0 else ⌈qmax / dq⌉

/-- `pdfutils_getQgrid` (PDFUtils.ipp:28-37). -/
def qgrid (qmax dq : K) : List K := (intRange 0 (qmaxSteps qmax dq)).map (fun n : ℤ => (n : K) * dq)

/-- The r-range parameters of `PDFCalculator` (`mrmin`, `mrmax`, `mrstep`, `mmaxextension`). -/
structure Par (K : Type) where
  rmin : K
  rmax : K
  dr : K
  maxext : K

/-- `mrlimits_cache` (PDFCalculator.hpp). -/
structure Limits where
  emin : ℤ
  emax : ℤ
  clo : ℤ
  chi : ℤ
deriving DecidableEq, Repr

/-- Rescaling to `maxextension` (PDFCalculator.cpp:738-745): extension due to ripples, and
total. -/
def rescaled (maxext ripples tails : K) : K × K :=
  let total := ripples + tails
  if total > maxext then (ripples * (maxext / total), maxext) else (ripples, total)

/-- `cacheRlimitsData` (PDFCalculator.cpp:728-754), given `extFromTerminationRipples()` and
`extFromPeakTails()`. -/
def rlimits (p : Par K) (ripples tails : K) : Limits :=
  if rminSteps p.rmin p.dr ≥ rmaxSteps p.rmax p.dr then ⟨0, 0, 0, 0⟩
  else
    let e := rescaled p.maxext ripples tails
    ⟨max 0 (rminSteps (p.rmin - e.1) p.dr), rmaxSteps (p.rmax + e.1) p.dr,
     max 0 (rminSteps (p.rmin - e.2) p.dr), rmaxSteps (p.rmax + e.2) p.dr⟩

/-- `countCalcPoints` (PDFCalculator.cpp:639-644). -/
def Limits.count (l : Limits) : ℤ := l.chi - l.clo

/-! ### values on the calculation range -/

/-- The copy loop `for (; si != slast && ti != tlast; ++si, ++ti) *ti = *si`
(PDFCalculator.cpp:559). -/
def copyLoop {α : Type} : List α → List α → List α
  | s :: ss, _ :: ts => s :: copyLoop ss ts
  | [], ts => ts
  | _ :: _, [] => []

/-- `restorePartialValue` (PDFCalculator.cpp:547-561): `st`, `stclo` are the value and its first
step saved by `stashPartialValue` (:540-544), `v` is `mvalue` before the call. -/
def restore {α : Type} (st : List α) (stclo : ℤ) (clo : ℤ) (v : List α) : List α :=
  let leftshift := clo - stclo
  if leftshift ≥ 0 then copyLoop (st.drop (min leftshift st.length).toNat) v
  else
    let k := (min (-leftshift) v.length).toNat
    v.take k ++ copyLoop st (v.drop k)

/-- A peak profile: `xboundlo`, `xboundhi` and `operator()` (PeakProfile.hpp). -/
structure Prof (K : Type) where
  lo : K → K
  hi : K → K
  y : K → K → K

/-- A pair contribution: distance, `fwhm` and `peakscale` without the summation scale
(PDFCalculator.cpp:516-520). -/
structure Peak (K : Type) where
  dist : K
  fwhm : K
  scale : K
deriving DecidableEq

/-- `calcIndex(r)` (PDFCalculator.cpp:647-651). -/
def calcIndex (clo : ℤ) (dr r : K) : ℤ := ⌊r / dr⌋ - clo

/-- The amount added at step `n` of the grid (PDFCalculator.cpp:529-535). -/
def peakAt (pf : Prof K) (dr : K) (pk : Peak K) (n : ℤ) : K :=
  let x := (n : K) * dr - pk.dist
  pk.scale * (pf.y x pk.fwhm * (x / pk.dist + 1))

/-- `addPairContribution` (PDFCalculator.cpp:513-537). -/
def addPeak (pf : Prof K) (dr : K) (l : Limits) (v : List K) (pk : Peak K) : List K :=
  let i := max 0 (calcIndex l.clo dr (pk.dist + pf.lo pk.fwhm))
  let ilast := min l.count (calcIndex l.clo dr (pk.dist + pf.hi pk.fwhm) + 1)
  (intRange i ilast).foldl (fun v k => v.modify k.toNat (· + peakAt pf dr pk (l.clo + k))) v

/-- The bonds that the bond generator configured by `configureBondGenerator`
(PDFCalculator.cpp:506-510) visits: those with distance from `rcalclo()` to `rcalchi()`
(theorems on bond generators, C14, C15). -/
def inRange (dr : K) (l : Limits) (pk : Peak K) : Bool :=
  decide ((l.clo : K) * dr ≤ pk.dist ∧ pk.dist ≤ (l.chi : K) * dr)

/-- `resetValue` followed by the contributions of all bonds `ps` of the structure
(PDFCalculator.cpp:486-503, PQEvaluator.cpp:96-128). -/
def evalPeaks (pf : Prof K) (dr : K) (l : Limits) (ps : List (Peak K)) : List K :=
  (ps.filter (inRange dr l)).foldl (addPeak pf dr l) (List.replicate l.count.toNat 0)

/-! ### output arrays -/

/-- The iterator range `[begin + a, begin + b)`; `none` when it leaves the array. -/
def slice {α : Type} (v : List α) (a b : ℤ) : Option (List α) :=
  if 0 ≤ a ∧ a ≤ b ∧ b ≤ v.length then some ((v.take b.toNat).drop a.toNat) else none

/-- `y.erase(y.end() - n, y.end())` (PDFCalculator.cpp:662). -/
def eraseEnd {α : Type} (n : ℤ) (y : List α) : Option (List α) :=
  if 0 ≤ n ∧ n ≤ y.length then some (y.take (y.length - n.toNat)) else none

/-- `y.erase(y.begin(), y.begin() + n)` (PDFCalculator.cpp:663). -/
def eraseBegin {α : Type} (n : ℤ) (y : List α) : Option (List α) :=
  if 0 ≤ n ∧ n ≤ y.length then some (y.drop n.toNat) else none

/-- `cutRipplePoints` (PDFCalculator.cpp:654-664): `p` are the current parameters, `l` the cached
limits. -/
def cutRipplePoints {α : Type} (p : Par K) (l : Limits) (y : List α) : Option (List α) :=
  if y.isEmpty then some y
  else
    (eraseEnd (l.emax - rmaxSteps p.rmax p.dr) y).bind
      (eraseBegin (rminSteps p.rmin p.dr - l.emin))

/-- The calculator as seen by the result functions: current parameters, cached limits and
`mvalue`. -/
structure Calc (K : Type) where
  par : Par K
  lim : Limits
  value : List K

/-- `getExtendedRDF` (PDFCalculator.cpp:187-208) with `rdf_scale` given. -/
def Calc.extendedRDF (c : Calc K) (scale : K) : Option (List K) :=
  (slice c.value (c.lim.emin - c.lim.clo) (c.lim.emax - c.lim.clo)).map (List.map (· * scale))

/-- `getExtendedRgrid` (PDFCalculator.cpp:239-251). -/
def Calc.extendedRgrid (c : Calc K) : List K :=
  (intRange c.lim.emin c.lim.emax).map (fun n : ℤ => (n : K) * c.par.dr)

/-- `getExtendedRDFperR` (PDFCalculator.cpp:211-223). -/
def Calc.extendedRDFperR (c : Calc K) (scale : K) : Option (List K) :=
  (c.extendedRDF scale).map fun rdf =>
    List.zipWith (fun r y => if r > 0 + eps then y / r else 0) c.extendedRgrid rdf

/-- `getExtendedPDF` (PDFCalculator.cpp:151-165) when no Fourier transformation is needed:
baseline added (`applyBaseline`, :405-418) and envelopes multiplied (PDFEnvelope.cpp:42-60). -/
def Calc.extendedPDF (c : Calc K) (scale : K) (baseline envelope : K → K) : Option (List K) :=
  (c.extendedRDFperR scale).map fun g =>
    List.zipWith (fun r y => (y + baseline r) * envelope r) c.extendedRgrid g

/-- `getRDF` (PDFCalculator.cpp:126-131). -/
def Calc.getRDF (c : Calc K) (scale : K) : Option (List K) :=
  (c.extendedRDF scale).bind (cutRipplePoints c.par c.lim)

/-- `getRDFperR` (PDFCalculator.cpp:134-139). -/
def Calc.getRDFperR (c : Calc K) (scale : K) : Option (List K) :=
  (c.extendedRDFperR scale).bind (cutRipplePoints c.par c.lim)

/-- `getPDF` (PDFCalculator.cpp:118-123) when no Fourier transformation is needed. -/
def Calc.getPDF (c : Calc K) (scale : K) (baseline envelope : K → K) : Option (List K) :=
  (c.extendedPDF scale baseline envelope).bind (cutRipplePoints c.par c.lim)

/-- The calculator after `eval` of a structure with bonds `ps` (`setStructure` rebuilds the
limits, PDFCalculator.cpp:486-503). -/
def evaluated (p : Par K) (ripples tails : K) (pf : Prof K) (ps : List (Peak K)) : Calc K :=
  let l := rlimits p ripples tails
  ⟨p, l, evalPeaks pf p.dr l ps⟩

/-- `setRmin`, `setRmax`, ... after an evaluation change the parameters only; the limits are
rebuilt by the next evaluation (PDFCalculator.cpp:312-347). -/
def Calc.setPar (c : Calc K) (p : Par K) : Calc K := { c with par := p }

/-- The fast update of the OPTIMIZED evaluator (PQEvaluator.cpp:200-298): contributions of the
removed bonds subtracted with the old limits, stash, `setStructure` (new limits), restore,
contributions of the added bonds. -/
def fastUpdate (c : Calc K) (ripples tails : K) (pf : Prof K) (removed added : List (Peak K)) :
    Calc K :=
  let neg := fun pk : Peak K => { pk with scale := -pk.scale }
  let v0 := ((removed.filter (inRange c.par.dr c.lim)).map neg).foldl (addPeak pf c.par.dr c.lim)
    c.value
  let l := rlimits c.par ripples tails
  let v1 := restore v0 c.lim.clo l.clo (List.replicate l.count.toNat 0)
  ⟨c.par, l, (added.filter (inRange c.par.dr l)).foldl (addPeak pf c.par.dr l) v1⟩

end Verif.PDFGrid
