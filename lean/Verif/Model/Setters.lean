import Verif.Model.Debye
/-
Model of the validated, change-tracked setters of the calculators: src/diffpy/validators.hpp,
PairQuantity.cpp, BaseDebyeSum.cpp, DebyePDFCalculator.cpp and PDFCalculator.cpp (all in
src/diffpy/srreal).  A call returns `.ok` with the new state or `.error` with the state left behind by
the exception.  `clicks` counts the calls `mticker.click()`.  Numbers are reals.
-/
namespace Verif.Setters
open Verif.PDFGrid

/-- `ensureNonNegative` (validators.hpp:32-42): whether it throws. -/
noncomputable def throwsNegative (x : ℝ) : Bool := decide (x < 0)

/-- `ensureEpsilonPositive` (validators.hpp:45-57) with `eps_gt` (mathutils.ipp): whether it throws. -/
noncomputable def throwsNotPositive (x : ℝ) : Bool := !decide (x > 0 + eps)

/-! ### PDFCalculator -/

/-- The numeric parameters of `PDFCalculator` (PDFCalculator.hpp, PairQuantity.hpp) and the clicks of its
ticker.  The caches that the setters rebuild for the initial empty structure
(`_initialQstepUpdate`, PDFCalculator.cpp:44-53) are functions of these parameters and not kept here. -/
structure P where
  qmin : ℝ
  qmax : ℝ
  rmin : ℝ
  rmax : ℝ
  rstep : ℝ
  maxext : ℝ
  clicks : Nat

/-- Setter calls on a `PDFCalculator`. -/
inductive POp
  | setQmin (x : ℝ)
  | setQmax (x : ℝ)
  | setRmin (x : ℝ)
  | setRmax (x : ℝ)
  | setRstep (x : ℝ)
  | setMaxExtension (x : ℝ)

/-- `DOUBLE_MAX` (mathutils.hpp): the largest double, 2^1024 - 2^971. -/
noncomputable def doubleMax : ℝ := 2 ^ 1024 - 2 ^ 971

/-- The setters of `PDFCalculator` (PDFCalculator.cpp:262-266, :275-282, :312-333, :342-347;
PairQuantity.cpp:118-122, :130-135). -/
noncomputable def pstep (p : P) : POp → Except P P
  | .setQmin x => if throwsNegative x then .error p else .ok { p with qmin := x }
  | .setQmax x =>
    if throwsNegative x then .error p
    else
      let qmax1 := if x > 0 then x else doubleMax
      .ok { p with clicks := if qmax1 < p.qmax then p.clicks + 1 else p.clicks, qmax := qmax1 }
  | .setRmin x =>
    if throwsNegative x then .error p
    else .ok { p with clicks := if p.rmin ≠ x then p.clicks + 1 else p.clicks, rmin := x }
  | .setRmax x =>
    if throwsNegative x then .error p
    else .ok { p with clicks := if p.rmax ≠ x then p.clicks + 1 else p.clicks, rmax := x }
  | .setRstep x =>
    if throwsNotPositive x then .error p
    else .ok { p with clicks := if p.rstep ≠ x then p.clicks + 1 else p.clicks, rstep := x }
  | .setMaxExtension x =>
    if throwsNegative x then .error p
    else .ok { p with clicks := if p.maxext ≠ x then p.clicks + 1 else p.clicks, maxext := x }

/-- `extFromTerminationRipples` (PDFCalculator.cpp:579-590), `eps_gt` and `eps_lt` spelled out. -/
noncomputable def P.ripples (p : P) : ℝ :=
  let qmax := Fft.getQmax p.qmax p.rstep
  if qmax > 0 + eps ∧ qmax < Real.pi / p.rstep - eps then 6 * 2 * Real.pi / qmax else 0

/-- The limits an evaluation uses (PDFCalculator.cpp:728-754) for the extension by peak tails
`tails rmin rmax` (:593-604). -/
noncomputable def P.limits (tails : ℝ → ℝ → ℝ) (p : P) : Limits :=
  rlimits ⟨p.rmin, p.rmax, p.rstep, p.maxext⟩ p.ripples (tails p.rmin p.rmax)

/-! ### BaseDebyeSum and DebyePDFCalculator -/

/-- The state of a `DebyePDFCalculator`: Q parameters of `BaseDebyeSum` (`q`, with `mqmin` in `q.qmin`),
`mqminpdf`, r parameters, `moptimumqstep`, `mrcalclosteps`, `mrcalchisteps`, `mrlimits_are_cached`
(DebyePDFCalculator.hpp) and the clicks of `mticker`. -/
structure D where
  q : Debye.QPar
  qminpdf : ℝ
  rmin : ℝ
  rmax : ℝ
  rstep : ℝ
  maxext : ℝ
  optimum : Bool
  clo : ℤ
  chi : ℤ
  cached : Bool
  clicks : Nat

/-- `mticker.click()`. -/
def D.click (d : D) : D := { d with clicks := d.clicks + 1 }

/-- `if (changed) mticker.click()`. -/
def D.clickIf (d : D) (changed : Bool) : D := if changed then d.click else d

/-- `BaseDebyeSum::setQmin` (BaseDebyeSum.cpp:101-106). -/
noncomputable def baseSetQmin (x : ℝ) (d : D) : Except D D :=
  if throwsNegative x then .error d
  else .ok { d.clickIf (decide (d.q.qmin ≠ x)) with q := { d.q with qmin := x } }

/-- `BaseDebyeSum::setQmax` (BaseDebyeSum.cpp:115-120). -/
noncomputable def baseSetQmax (x : ℝ) (d : D) : Except D D :=
  if throwsNegative x then .error d
  else .ok { d.clickIf (decide (d.q.qmax ≠ x)) with q := { d.q with qmax := x } }

/-- `BaseDebyeSum::setQstep` (BaseDebyeSum.cpp:129-134). -/
noncomputable def baseSetQstep (x : ℝ) (d : D) : Except D D :=
  if throwsNotPositive x then .error d
  else .ok { d.clickIf (decide (d.q.qstep ≠ x)) with q := { d.q with qstep := x } }

/-- `BaseDebyeSum::setDebyePrecision` (BaseDebyeSum.cpp:143-147). -/
noncomputable def setPrecision (x : ℝ) (d : D) : Except D D :=
  .ok { d.clickIf (decide (d.q.prec ≠ x)) with q := { d.q with prec := x } }

/-- `extFromTerminationRipples` (DebyePDFCalculator.cpp:352-360). -/
noncomputable def D.ripples (d : D) : ℝ := if d.q.qmax > 0 then 6 * 2 * Real.pi / d.q.qmax else 0

/-- `ext_total` (DebyePDFCalculator.cpp:380-381); `tails rmin rmax` is `extFromPeakTails()` (:363-374)
for the structure and peak width model at the time. -/
noncomputable def D.ext (tails : ℝ → ℝ → ℝ) (d : D) : ℝ := min d.maxext (d.ripples + tails d.rmin d.rmax)

/-- `cacheRlimitsData` (DebyePDFCalculator.cpp:377-393). -/
noncomputable def cacheRlimits (tails : ℝ → ℝ → ℝ) (d : D) : D :=
  let nhi := rmaxSteps (d.rmax + d.ext tails) d.rstep
  { d with
    clo := max 0 (rminSteps (d.rmin - d.ext tails) d.rstep)
    chi := if nhi ≤ d.chi - 50 ∨ nhi > d.chi then nhi else d.chi
    cached := true }

/-- The `if (!mrlimits_are_cached)` of `rcalclo` and `rcalchi` (DebyePDFCalculator.cpp:336-349). -/
noncomputable def ensureCached (tails : ℝ → ℝ → ℝ) (d : D) : D := if d.cached then d else cacheRlimits tails d

/-- The value returned by `rcalclo()` once the limits are cached. -/
noncomputable def D.rcalclo (d : D) : ℝ := (d.clo : ℝ) * d.rstep

/-- The value returned by `rcalchi()` once the limits are cached. -/
noncomputable def D.rcalchi (d : D) : ℝ := (d.chi : ℝ) * d.rstep

/-- `oqstep` (DebyePDFCalculator.cpp:327-328). -/
noncomputable def D.oqstep (d : D) : ℝ :=
  if d.q.qmax * d.rcalchi / Real.pi > 4 then Real.pi / d.rcalchi else d.q.qmax / 4

/-- `updateQstep` (DebyePDFCalculator.cpp:322-333). -/
noncomputable def updateQstep (tails : ℝ → ℝ → ℝ) (d : D) : Except D D :=
  let d1 := ensureCached tails d
  let d2 := if d1.q.qstep ≥ d1.oqstep then { d1 with optimum := true } else d1
  if d2.optimum then baseSetQstep d1.oqstep d2 else .ok d2

/-- Calls on a `DebyePDFCalculator`: the setters, and `reset`, the virtual `resetValue` as called by
`setStructure` in an evaluation. -/
inductive DOp
  | setQmin (x : ℝ)
  | setQmax (x : ℝ)
  | setQstep (x : ℝ)
  | setOptimumQstep
  | setPrecision (x : ℝ)
  | setRmin (x : ℝ)
  | setRmax (x : ℝ)
  | setRstep (x : ℝ)
  | setMaxExtension (x : ℝ)
  | reset

/-- `PairQuantity::setRmin` (PairQuantity.cpp:118-122). -/
noncomputable def pqSetRmin (x : ℝ) (d : D) : D := { d.clickIf (decide (d.rmin ≠ x)) with rmin := x }

/-- `PairQuantity::setRmax` (PairQuantity.cpp:130-134). -/
noncomputable def pqSetRmax (x : ℝ) (d : D) : D := { d.clickIf (decide (d.rmax ≠ x)) with rmax := x }

/-- The setters (DebyePDFCalculator.cpp:125-220) and the part of `resetValue` (:266-271) that changes
parameters. -/
noncomputable def dstep (tails : ℝ → ℝ → ℝ) (d : D) : DOp → Except D D
  | .setQmin x =>
    if throwsNegative x then .error d
    else (baseSetQmin 0 d).bind fun d => .ok { d with qminpdf := x }
  | .setQmax x => (baseSetQmax x d).bind (updateQstep tails)
  | .setQstep x => (baseSetQstep x d).bind fun d => updateQstep tails { d with optimum := false }
  | .setOptimumQstep => updateQstep tails { d with optimum := true }
  | .setPrecision x => Setters.setPrecision x d
  | .setRmin x =>
    if throwsNegative x then .error d
    else .ok (pqSetRmin x { d with cached := if d.rmin ≠ x then false else d.cached })
  | .setRmax x =>
    if throwsNegative x then .error d
    else updateQstep tails (pqSetRmax x { d with cached := if d.rmax ≠ x then false else d.cached })
  | .setRstep x =>
    if throwsNotPositive x then .error d
    else .ok { d with cached := if d.rstep ≠ x then false else d.cached, rstep := x }
  | .setMaxExtension x =>
    if throwsNegative x then .error d
    else
      let d1 := if d.maxext ≠ x then { d.click with cached := false } else d
      updateQstep tails { d1 with maxext := x }
  | .reset => updateQstep tails (cacheRlimits tails d)

/-- The state after a call, whether it throws or not. -/
def after {α : Type} : Except α α → α
  | .ok d => d
  | .error d => d

/-- A history of calls; each comes with the extension function of the structure and peak width model at
that time. -/
noncomputable def drun (d : D) (ops : List ((ℝ → ℝ → ℝ) × DOp)) : D :=
  ops.foldl (fun d o => after (dstep o.1 d o.2)) d

/-- `DebyePDFCalculator()` (DebyePDFCalculator.cpp:40-60) with `BaseDebyeSum()` (BaseDebyeSum.cpp:49-63) and
the defaults of PDFUtils.hpp:34-43, before the calls in the body. -/
noncomputable def dnew : D :=
  { q := ⟨0, 10, 0.05, 1e-6⟩, qminpdf := 0, rmin := 0, rmax := 0, rstep := 0.01, maxext := 10,
    optimum := false, clo := 0, chi := 0, cached := false, clicks := 0 }

/-- The constructor's calls that set parameters (DebyePDFCalculator.cpp:51-53, :60). -/
noncomputable def dctor (tails : ℝ → ℝ → ℝ) : D :=
  drun dnew [(tails, .setRmax 10), (tails, .setQmax 25), (tails, .setOptimumQstep), (tails, .reset)]

end Verif.Setters
