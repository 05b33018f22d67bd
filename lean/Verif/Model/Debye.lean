import Verif.Model.Evaluator
import Verif.Model.Fft
import Verif.Model.PeakShape
import Verif.Model.AssocMap
/-
Model of the Debye summation (src/diffpy/srreal/BaseDebyeSum.cpp) and of the Debye PDF calculator
(src/diffpy/srreal/DebyePDFCalculator.cpp).  Numbers are reals; rounding of doubles is not modelled.
An index out of range is the result `none`.
-/
namespace Verif.Debye
open Verif.PDFGrid Verif.Eval

/-- The Q parameters of `BaseDebyeSum`: `mqmin`, `mqmax`, `mqstep`, `mdebyeprecision`
(BaseDebyeSum.hpp). -/
structure QPar where
  qmin : ℝ
  qmax : ℝ
  qstep : ℝ
  prec : ℝ

/-- `pdfutils_qminSteps(this)` (PDFUtils.ipp:51-58). -/
noncomputable def QPar.lo (p : QPar) : ℤ := qminSteps p.qmin p.qstep

/-- `pdfutils_qmaxSteps(this)` (PDFUtils.ipp:61-68). -/
noncomputable def QPar.hi (p : QPar) : ℤ := qmaxSteps p.qmax p.qstep

/-! ### The structure cache -/

/-- What the calculator asks of a site: `siteAtomType`, `siteOccupancy`, `siteMultiplicity`
(StructureAdapter.hpp). -/
structure Site where
  typ : String
  occ : ℝ
  mult : ℕ

/-- `mstructure_cache` (BaseDebyeSum.hpp) without the averages. -/
structure Cache where
  typeofsite : List Nat
  sftype : List (List ℝ)

/-- The new array for a type (BaseDebyeSum.cpp:256-262): zeros, then `sfSiteAtQ` of the site from the
first to the last Q step. -/
noncomputable def sfArray (p : QPar) (sf : ℝ → ℝ) : List ℝ :=
  (intRange p.lo p.hi).foldl (fun a (kq : ℤ) => a.set kq.toNat (sf (p.qstep * (kq : ℝ))))
    (List.replicate p.hi.toNat 0)

/-- The loop over sites in `cacheStructureData` (BaseDebyeSum.cpp:241-263).  `sfSite i q` is the virtual
`sfSiteAtQ(i, q)`; `m` is `atomtypeidx`, the sites still to visit start at index `i`. -/
noncomputable def cacheLoop (p : QPar) (sfSite : Nat → ℝ → ℝ) :
    List Site → Nat → List (String × Nat) → Cache → Cache
  | [], _, _, c => c
  | s :: ss, i, m, c =>
    let m' := match AssocMap.find m s.typ with
      | some _ => m
      | none => (s.typ, m.length) :: m
    let tp := (AssocMap.find m' s.typ).getD 0
    let c' : Cache :=
      { typeofsite := c.typeofsite ++ [tp]
        sftype := if tp < c.sftype.length then c.sftype else c.sftype ++ [sfArray p (sfSite i)] }
    cacheLoop p sfSite ss (i + 1) m' c'

/-- The part of `cacheStructureData` before the averages (BaseDebyeSum.cpp:231-265). -/
noncomputable def cacheOf (p : QPar) (sfSite : Nat → ℝ → ℝ) (sites : List Site) : Cache :=
  cacheLoop p sfSite sites 0 [] ⟨[], []⟩

/-- `sfSiteAtkQ` (BaseDebyeSum.cpp:213-221); `none` when an index is out of range. -/
def Cache.sfSiteAtkQ (c : Cache) (site : Nat) (kq : ℤ) : Option ℝ :=
  (c.typeofsite[site]?).bind fun tp => (c.sftype[tp]?).bind fun a =>
    if 0 ≤ kq then a[kq.toNat]? else none

/-- `StructureAdapter::totalOccupancy` (StructureAdapter.cpp:36-45). -/
def totalOccupancy (sites : List Site) : ℝ := sites.foldl (fun t s => t + s.occ * (s.mult : ℝ)) 0

/-- `tpmultipl` (BaseDebyeSum.cpp:272-278). -/
def typeMultiplicities (c : Cache) (sites : List Site) : List ℕ :=
  (sites.zipIdx).foldl (fun a si => a.modify (c.typeofsite.getD si.2 0) (· + si.1.mult))
    (List.replicate c.sftype.length 0)

/-- `sfaverageatkq` (BaseDebyeSum.cpp:268-290). -/
noncomputable def sfAverage (p : QPar) (c : Cache) (sites : List Site) : List ℝ :=
  let tm := typeMultiplicities c sites
  let sums := (List.range c.sftype.length).foldl (fun sfak tp =>
    (intRange p.lo p.hi).foldl (fun sfak (kq : ℤ) =>
      sfak.modify kq.toNat (· + (c.sftype.getD tp []).getD kq.toNat 0 * (tm.getD tp 0 : ℝ))) sfak)
    (List.replicate p.hi.toNat 0)
  let totocc := totalOccupancy sites
  let tosc : ℝ := if totocc > 0 + eps then 1 / totocc else 1
  sums.map (tosc * ·)

/-- `DebyePDFCalculator::sfSiteAtQ` (DebyePDFCalculator.cpp:281-288); `lookup` is
`ScatteringFactorTable::lookup`. -/
noncomputable def sfPDF (lookup : String → ℝ → ℝ) (sites : List Site) (i : Nat) (q : ℝ) : ℝ :=
  match sites[i]? with
  | some s => lookup s.typ q * s.occ
  | none => 0

/-- `BaseDebyeSum::sfSiteAtQ` (BaseDebyeSum.cpp:206-209). -/
def sfBase (_ : Nat) (_ : ℝ) : ℝ := 1

/-! ### Pair contributions -/

/-- A bond as `addPairContribution` sees it: `distance()`, the peak width
`getPeakWidthModel()->calculate(bnds)` and `multiplicity()`. -/
structure Bond where
  dist : ℝ
  fwhm : ℝ
  mult : ℕ

/-- `dwsigma` (BaseDebyeSum.cpp:174-175); `M_LN2` is log 2. -/
noncomputable def dwSigma (fwhm : ℝ) : ℝ := 1 / (2 * Real.sqrt (2 * Real.log 2)) * fwhm

/-- `sinescale` (BaseDebyeSum.cpp:181-185) for the site factors `sf0`, `sf1`. -/
noncomputable def sineScale (p : QPar) (b : Bond) (sm : ℤ) (sf0 sf1 : ℤ → ℝ) (kq : ℤ) : ℝ :=
  (sm : ℝ) * Real.exp (-0.5 * (dwSigma b.fwhm * ((kq : ℝ) * p.qstep)) ^ 2) * sf0 kq * sf1 kq / b.dist

/-- The loop over Q steps (BaseDebyeSum.cpp:179-188) with its `break`. -/
noncomputable def qLoop (p : QPar) (b : Bond) (scale : ℤ → ℝ) : List ℤ → List ℝ → List ℝ
  | [], v => v
  | kq :: ks, v =>
    if |0 - scale kq| ≤ p.prec then v
    else qLoop p b scale ks
      (v.modify kq.toNat (· + scale kq * Real.sin ((kq : ℝ) * p.qstep * b.dist)))

/-- `addPairContribution` (BaseDebyeSum.cpp:167-189) for summation scale `sc` and site factors
`sf0`, `sf1`. -/
noncomputable def addPair (p : QPar) (sf0 sf1 : ℤ → ℝ) (sc : ℤ) (b : Bond) (v : List ℝ) : List ℝ :=
  if |0 - b.dist| ≤ eps then v
  else qLoop p b (sineScale p b (sc * (b.mult : ℤ)) sf0 sf1) (intRange p.lo p.hi) v

/-- The site factors taken from the cache (BaseDebyeSum.cpp:183-184). -/
noncomputable def Cache.sf (c : Cache) (site : Nat) (kq : ℤ) : ℝ := (c.sfSiteAtkQ site kq).getD 0

/-- The `addPairContribution` calls of an evaluation, in order. -/
noncomputable def addTrace (p : QPar) (c : Cache) (tr : List (Contrib Bond)) (v : List ℝ) : List ℝ :=
  tr.foldl (fun v t => addPair p (c.sf t.i0) (c.sf t.i1) t.scale t.bond v) v

/-- The value after `resetValue` (BaseDebyeSum.cpp:159-164) and the calls in `tr`. -/
noncomputable def value (p : QPar) (c : Cache) (tr : List (Contrib Bond)) : List ℝ :=
  addTrace p c tr (List.replicate p.hi.toNat 0)

/-! ### Results -/

/-- `getF` (BaseDebyeSum.cpp:77-90): `p` are the current Q parameters, `v` the stored value, `avg` the
stored averages and `totocc` the stored total occupancy; `none` when an index is out of range. -/
noncomputable def getF (p : QPar) (avg : List ℝ) (totocc : ℝ) (v : List ℝ) : Option (List ℝ) :=
  (intRange p.lo p.hi).foldl (fun r (kq : ℤ) => r.bind fun rv =>
    if 0 ≤ kq then
      (avg[kq.toNat]?).bind fun sfavg =>
        let fscale : ℝ := if sfavg * totocc = 0 then 0 else 1 / (sfavg * sfavg * totocc)
        (rv[kq.toNat]?).map fun x => rv.set kq.toNat (x * fscale)
    else none) (some v)

/-- The padded F(Q) of `getPDFAtQmin` (DebyePDFCalculator.cpp:294-301). -/
noncomputable def padF (qmin qstep rstep : ℝ) (f : List ℝ) : List ℝ :=
  let nqmin := min (qminSteps qmin qstep) (f.length : ℤ)
  let f1 := List.replicate nqmin.toNat 0 ++ f.drop nqmin.toNat
  let nfromdr := ⌈Real.pi / rstep / qstep⌉
  f1 ++ List.replicate (nfromdr - (f1.length : ℤ)).toNat 0

/-- `drpad` (DebyePDFCalculator.cpp:303) for an array of length `n`. -/
noncomputable def drpad (n : Nat) (qstep : ℝ) : ℝ := Real.pi / ((n : ℝ) * qstep)

/-- Linear interpolation at `r` (DebyePDFCalculator.cpp:310-316); `int(x)` truncates. `none` when an
index is out of range. -/
noncomputable def interp (g : List ℝ) (dr r : ℝ) : Option ℝ :=
  let x := r / dr
  let iplo : ℤ := ⌊x⌋
  let iphi := iplo + 1
  let wphi := x - (iplo : ℝ)
  let wplo := 1 - wphi
  if 0 ≤ iplo then
    (g[iplo.toNat]?).bind fun a => (g[iphi.toNat]?).map fun b => wplo * a + wphi * b
  else none

/-- `getPDFAtQmin` (DebyePDFCalculator.cpp:292-319) for the result `f` of `getF`. -/
noncomputable def getPDFAtQmin (qmin qstep rmin rmax rstep : ℝ) (f : List ℝ) : Option (List ℝ) :=
  let g := Fft.fftftog (padF qmin qstep rstep f) qstep 0
  (rgrid rmin rmax rstep).mapM fun r => interp g (drpad g.length qstep) r

end Verif.Debye
