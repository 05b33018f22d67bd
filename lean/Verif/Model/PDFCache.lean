import Verif.Model.PDFGrid
import Verif.Model.Debye
import Verif.Model.Mask
import Verif.Model.BondGen
import Verif.Model.PeakShape
import Verif.Model.Envelope
/-
Model of the structure data cached by `PDFCalculator` (src/diffpy/srreal/PDFCalculator.cpp:683-725), of the
scale and the linear baseline taken from it, and of a complete evaluation of a finite structure.
Numbers are reals.
-/
namespace Verif.PDFCache
open Verif.PDFGrid Verif.Eval Verif.R3 Verif.BondGen

/-- What the calculator asks of a site: type, occupancy, multiplicity (StructureAdapter.hpp). -/
abbrev Site := Debye.Site

/-- The loop over sites with its cache `fcache` of scattering factors by type (PDFCalculator.cpp:687-700);
`lookup` is `ScatteringFactorTable::lookup(smbl)` (a symbol without factor throws in the code; not modelled). -/
def sfLoop (lookup : String → ℝ) : List Site → List (String × ℝ) → List ℝ
  | [], _ => []
  | s :: ss, m =>
    match AssocMap.find m s.typ with
    | some v => v * s.occ :: sfLoop lookup ss m
    | none => lookup s.typ * s.occ :: sfLoop lookup ss ((s.typ, lookup s.typ) :: m)

/-- `mstructure_cache` (PDFCalculator.hpp). -/
structure Cache where
  sfsite : List ℝ
  sfaverage : ℝ
  totocc : ℝ
  activeocc : ℝ

/-- `sfSite(i)` (PDFCalculator.cpp:667-671). -/
def Cache.sfSite (c : Cache) (i : Nat) : ℝ := c.sfsite.getD i 0

/-- `totsf` (PDFCalculator.cpp:703-707). -/
def totsf (sfsite : List ℝ) (sites : List Site) : ℝ :=
  sites.zipIdx.foldl (fun t si => t + sfsite.getD si.2 0 * (si.1.mult : ℝ)) 0

/-- Occupancy times multiplicity of site `i`, as read in PDFCalculator.cpp:719-721. -/
def weight (sites : List Site) (i : Int) : ℝ :=
  match sites[i.toNat]? with
  | some s => s.occ * (s.mult : ℝ)
  | none => 0

/-- `invmasktotal` before the division (PDFCalculator.cpp:712-723). -/
def invMaskTotal (sites : List Site) (inv : List (Int × Int)) : ℝ :=
  inv.foldl (fun t ij =>
    if ij.1 < 0 ∨ ij.1 ≥ (sites.length : Int) ∨ ij.2 < 0 ∨ ij.2 ≥ (sites.length : Int) then t
    else t + (if ij.1 = ij.2 then 1 else 2) * weight sites ij.1 * weight sites ij.2) 0

/-- `cacheStructureData` (PDFCalculator.cpp:683-725) with the mask `dflt`, `inv` of the calculator. -/
noncomputable def cacheOf (lookup : String → ℝ) (dflt : Bool) (inv : List (Int × Int)) (sites : List Site) :
    Cache :=
  let sfsite := sfLoop lookup sites []
  let totocc := Debye.totalOccupancy sites
  let inv0 := invMaskTotal sites inv
  let inv1 := if totocc > 0 then inv0 / totocc else inv0
  { sfsite := sfsite
    sfaverage := if totocc = 0 then 0 else totsf sfsite sites / totocc
    totocc := totocc
    activeocc := if dflt then totocc - inv1 else inv1 }

/-- `rdf_scale` (PDFCalculator.cpp:190-193). -/
noncomputable def Cache.rdfScale (c : Cache) : ℝ :=
  if c.totocc * c.sfaverage = 0 then 0 else 1 / (c.totocc * c.sfaverage * c.sfaverage)

/-- The slope given to a linear baseline (PDFCalculator.cpp:492-500); `density` is `numberDensity()`. -/
noncomputable def Cache.slope (c : Cache) (density : ℝ) : ℝ :=
  let partialpdfscale := if 0 = c.totocc then 0 else c.activeocc / c.totocc
  let pnumdensity := partialpdfscale * density
  (-4 * Real.pi * pnumdensity)

/-- The peak of a bond (PDFCalculator.cpp:516-520): `width` is `getPeakWidthModel()->calculate(bnds)` for
the sites and the bond; `mult` is `bnds.multiplicity()`. -/
noncomputable def peakOf (c : Cache) (width : Nat → Nat → Bond → ℝ) (mult : Nat → ℝ) (t : Contrib Bond) : Peak ℝ :=
  ⟨t.bond.distance, width t.i0 t.i1 t.bond, c.sfSite t.i0 * c.sfSite t.i1 * mult t.i0 * (t.scale : ℝ)⟩

/-- `resetValue` and the `addPairContribution` calls of an evaluation (PDFCalculator.cpp:486-537). -/
noncomputable def valueOf (pf : Prof ℝ) (dr : ℝ) (l : Limits) (pks : List (Peak ℝ)) : List ℝ :=
  pks.foldl (addPeak pf dr l) (List.replicate l.count.toNat 0)

/-- The generator for a finite structure with atoms at `pos`, configured by `configureBondGenerator`
(PDFCalculator.cpp:506-510). -/
noncomputable def finiteGen (pos : Nat → V3) (dr : ℝ) (l : Limits) : Gen Bond := fun i sel =>
  (baseLoop ⟨pos i, (l.clo : ℝ) * dr, (l.chi : ℝ) * dr⟩ pos sel ⟨⟨0, 0, 0⟩, ⟨0, 0, 0⟩, 0⟩).map
    fun b => (b.site1, b)

/-- `eval(stru)` with the serial BASIC evaluator (PQEvaluator.cpp:96-128) for `cnt` sites visited by the generator
`gen l` configured for the limits `l`: parameters, limits and value afterwards.  `use` is the pair mask and `mult`
the multiplicity of a site. -/
noncomputable def evalGen (p : Par ℝ) (ripples tails : ℝ) (pf : Prof ℝ) (width : Nat → Nat → Bond → ℝ) (c : Cache)
    (mult : Nat → ℝ) (use : Nat → Nat → Bool) (cnt : Nat) (gen : Limits → Gen Bond) : Calc ℝ :=
  let l := rlimits p ripples tails
  ⟨p, l, valueOf pf p.dr l ((basicTrace true (gen l) false use cnt 0 1).map (peakOf c width mult))⟩

/-- `eval(stru)` for a finite structure of `sites` at `pos`.  The multiplicity of a site of a finite structure is
one (`siteMultiplicity`, StructureAdapter.cpp:61-64). -/
noncomputable def evalFinite (p : Par ℝ) (ripples tails : ℝ) (pf : Prof ℝ) (width : Nat → Nat → Bond → ℝ) (c : Cache)
    (use : Nat → Nat → Bool) (sites : List Site) (pos : Nat → V3) : Calc ℝ :=
  evalGen p ripples tails pf width c (fun _ => 1) use sites.length (finiteGen pos p.dr)

end Verif.PDFCache
