import Verif.Model.PDFGrid
import Mathlib.Analysis.SpecialFunctions.Trigonometric.Basic
import Mathlib.Analysis.SpecialFunctions.Log.Base
import Mathlib.Algebra.Order.Round
import Mathlib.Algebra.Order.Archimedean.Real.Basic
/-
Model of the Fourier transformations (src/diffpy/srreal/PDFUtils.cpp) and of the Q-window of
PDFCalculator::getExtendedPDF (PDFCalculator.cpp:151-184).  The library routine
gsl_fft_complex_radix2_inverse is represented by its specification, the inverse discrete Fourier
transform.
-/
namespace Verif.Fft
open Verif.PDFGrid Classical

/-- `gsl_fft_complex_radix2_inverse` by its specification: x_k = (1/n) Σ_j z_j exp(2πi jk/n). -/
noncomputable def gslInverse (z : List ℂ) : List ℂ :=
  (List.range z.length).map fun k : Nat =>
    (∑ j ∈ Finset.range z.length,
      z.getD j 0 * Complex.exp (2 * Real.pi * Complex.I * (j : ℂ) * (k : ℂ) / (z.length : ℂ))) /
      (z.length : ℂ)

/-- `1 << int(ceil(log2(n)))` (PDFUtils.cpp:51, PDFCalculator.cpp:298). -/
noncomputable def pad2 (n : Nat) : Nat := 2 ^ (⌈Real.logb 2 n⌉.toNat)

/-- Copying the signal (PDFUtils.cpp:57-62); `gpadc[2 * ilo]` is the real part of entry `ilo`, the
imaginary parts are zero. -/
def copyLo : List ℝ → Nat → List ℂ → List ℂ
  | [], _, a => a
  | x :: xs, ilo, a => copyLo xs (ilo + 1) (a.set ilo (x : ℂ))

/-- Odd extension (PDFUtils.cpp:65-69): `m` iterations are left, `ilo = N - m`,
`ihi = 2 * N - ilo`. -/
def copyHi (N : Nat) : Nat → Nat → List ℂ → List ℂ
  | 0, _, a => a
  | m + 1, ilo, a => copyHi N m (ilo + 1) (a.set (2 * N - ilo) (-1 * a.getD ilo 0))

/-- `padrmin` (PDFUtils.cpp:48), for `rmin ≥ 0`. -/
noncomputable def padmin (rstep rmin : ℝ) : Nat := (round (rmin / rstep)).toNat

/-- The padded signal handed to GSL (PDFUtils.cpp:49-69). -/
noncomputable def padded (g : List ℝ) (pad N : Nat) : List ℂ :=
  copyHi N (N - 1) 1 (copyLo g pad (List.replicate (2 * N) 0))

/-- `fftgtof` (PDFUtils.cpp:45-84), for `rmin ≥ 0`. -/
noncomputable def fftgtof (g : List ℝ) (rstep rmin : ℝ) : List ℝ :=
  if g.isEmpty then g
  else
    let N := pad2 (padmin rstep rmin + g.length)
    let z := gslInverse (padded g (padmin rstep rmin) N)
    (List.range N).map fun i : Nat => (z.getD i 0).im * (N : ℝ) * rstep

/-- `fftftog` (PDFUtils.cpp:87-94). -/
noncomputable def fftftog (f : List ℝ) (qstep qmin : ℝ) : List ℝ :=
  (fftgtof f qstep qmin).map (· * (2.0 / Real.pi))

/-- `getQstep` (PDFCalculator.cpp:293-301). -/
noncomputable def getQstep (emax : ℤ) (dr : ℝ) : ℝ :=
  if emax > 0 then Real.pi / ((pad2 emax.toNat : ℝ) * dr) else 0

/-- `getQmax` (PDFCalculator.cpp:285-290). -/
noncomputable def getQmax (mqmax dr : ℝ) : ℝ := min mqmax (Real.pi / dr)

/-- Zeroing F outside the Q-window (PDFCalculator.cpp:169-176); `none` when the end of the window
is beyond the array. -/
def qwindow (lo hi : ℤ) (f : List ℝ) : Option (List ℝ) :=
  if 0 ≤ lo ∧ 0 ≤ hi ∧ hi ≤ f.length then
    let f1 := List.replicate (min lo f.length).toNat 0 ++ f.drop (min lo f.length).toNat
    some (f1.take hi.toNat ++ List.replicate (f.length - hi.toNat) 0)
  else none

/-- `getExtendedF` (PDFCalculator.cpp:226-236); `rdfperr` is `getExtendedRDFperR`. -/
noncomputable def extendedF (c : Calc ℝ) (baseline : ℝ → ℝ) (rdfperr : List ℝ) : List ℝ :=
  fftgtof (List.zipWith (fun r y => y + baseline r) c.extendedRgrid rdfperr) c.par.dr
    ((c.lim.emin : ℝ) * c.par.dr)

/-- `skipfft` (PDFCalculator.cpp:156-158). -/
noncomputable def skipfft (c : Calc ℝ) (qmin mqmax : ℝ) : Bool :=
  decide (¬ getQmax mqmax c.par.dr < Real.pi / c.par.dr - eps) &&
  decide (¬ 1 < qminSteps qmin (getQstep c.lim.emax c.par.dr))

/-- `getExtendedPDF` (PDFCalculator.cpp:151-184), before the envelopes. -/
noncomputable def extendedG (c : Calc ℝ) (qmin mqmax scale : ℝ) (baseline : ℝ → ℝ) :
    Option (List ℝ) :=
  (c.extendedRDFperR scale).bind fun rdfperr =>
    if skipfft c qmin mqmax then
      some (List.zipWith (fun r y => y + baseline r) c.extendedRgrid rdfperr)
    else
      let dq := getQstep c.lim.emax c.par.dr
      (qwindow (qminSteps qmin dq) (qmaxSteps (getQmax mqmax c.par.dr) dq)
        (extendedF c baseline rdfperr)).bind fun f =>
        let pdf1 := fftftog f dq 0
        (eraseEnd (pdf1.length - c.lim.emax) pdf1).bind (eraseBegin c.lim.emin)

/-- `getPDF` (PDFCalculator.cpp:118-123) in full. -/
noncomputable def getPDF (c : Calc ℝ) (qmin mqmax scale : ℝ) (baseline envelope : ℝ → ℝ) :
    Option (List ℝ) :=
  (extendedG c qmin mqmax scale baseline).bind fun g =>
    cutRipplePoints c.par c.lim (List.zipWith (fun r y => y * envelope r) c.extendedRgrid g)

/-- `getF` (PDFCalculator.cpp:142-148). -/
noncomputable def getF (c : Calc ℝ) (mqmax scale : ℝ) (baseline : ℝ → ℝ) : Option (List ℝ) :=
  (c.extendedRDFperR scale).bind fun rdfperr =>
    slice (extendedF c baseline rdfperr) 0
      (qmaxSteps (getQmax mqmax c.par.dr) (getQstep c.lim.emax c.par.dr))

end Verif.Fft
