import Verif.Lemmas.AssocMap
import Verif.Model.AtomUtils
import Verif.Model.Evaluator
import Mathlib.Analysis.SpecialFunctions.Exp
import Mathlib.Analysis.SpecialFunctions.Log.Basic
import Mathlib.Analysis.SpecialFunctions.Pow.Real
/-!
Models of BVParam, BVParametersTable and BVSCalculator (src/diffpy/srreal/).  Doubles are reals.
-/
namespace Verif.BV
open Verif.AssocMap Verif.AtomUtils Verif.Eval

abbrev Str := List Char

/-- The members compared by `BVParam::BondEqual` and hashed by `BVParam::BondHash`
(BVParam.cpp:107-130): the key of a `SetOfBVParam`. -/
structure Key where
  a0 : Str
  v0 : Int
  a1 : Str
  v1 : Int
deriving DecidableEq, Repr

/-- `mRo`, `mB`, `mref_id` (BVParam.hpp). -/
structure Par (K : Type) where
  Ro : K
  B : K
  ref : Str
deriving DecidableEq, Repr

/-- The ordering of the two atoms in the constructor of BVParam (BVParam.cpp:41-57). -/
def mkKey (a0 : Str) (v0 : Int) (a1 : Str) (v1 : Int) : Key :=
  if v0 < v1 then ⟨a1, v1, a0, v0⟩ else ⟨a0, v0, a1, v1⟩

/-- `BVParam::bondvalence` (BVParam.cpp:80-84). -/
noncomputable def bondvalence (p : Par ℝ) (d : ℝ) : ℝ := if p.B > 0 then Real.exp ((p.Ro - d) / p.B) else 0

/-- `BVParam::bondvalenceToDistance` (BVParam.cpp:87-91). -/
noncomputable def bondvalenceToDistance (p : Par ℝ) (v : ℝ) : ℝ := p.Ro - p.B * Real.log v

/-- `SetOfBVParam` (BVParametersTable.hpp): a set with key `BondEqual`, so a map from key to the
remaining members. -/
abbrev SetBV (K : Type) := List (Key × Par K)

/-- `BVParametersTable`: `mcustomtable`, `matomvalence` (BVParametersTable.hpp). -/
structure Table (K : Type) where
  custom : SetBV K
  valence : List (Str × Int)

variable {K : Type}

/-- `getAtomValence` (BVParametersTable.cpp:41-46). -/
def getAtomValence (t : Table K) (s : Str) : Int :=
  match find t.valence s with
  | some v => v
  | none => atomValence s

/-- `lookup(const BVParam&)` (BVParametersTable.cpp:61-81).  `std` is the content of the data file
(`getStandardSetOfBVParam`, BVParametersTable.cpp:160-195); the address of `none()` is `none`. -/
def lookupKey (std : SetBV K) (t : Table K) (k : Key) : Option (Key × Par K) :=
  match find t.custom k with
  | some p => some (k, p)
  | none =>
    match find std k with
    | some p => some (k, p)
    | none =>
      if ¬ (k.v0 > 0) then none
      else
        let k9 : Key := { k with v0 := 9 }
        match find t.custom k9 with
        | some p => some (k9, p)
        | none =>
          match find std k9 with
          | some p => some (k9, p)
          | none => none

/-- `lookup(atom0, valence0, atom1, valence1)` (BVParametersTable.cpp:96-103). -/
def lookup (std : SetBV K) (t : Table K) (a0 : Str) (v0 : Int) (a1 : Str) (v1 : Int) :
    Option (Key × Par K) :=
  lookupKey std t (mkKey a0 v0 a1 v1)

/-- `lookup(smbl0, smbl1)` (BVParametersTable.cpp:84-93). -/
def lookupSymbols (std : SetBV K) (t : Table K) (s0 s1 : Str) : Option (Key × Par K) :=
  lookup std t (atomBareSymbol s0) (getAtomValence t s0) (atomBareSymbol s1) (getAtomValence t s1)

/-- `resetCustom(bp)` (BVParametersTable.cpp:122-125). -/
def resetCustom (t : Table K) (k : Key) : Table K := { t with custom := erase t.custom k }

/-- `setCustom(bp)` (BVParametersTable.cpp:106-110): erase, then insert.  A reference into the table
itself as argument, which the erase would invalidate, is not modelled. -/
def setCustom (t : Table K) (k : Key) (p : Par K) : Table K :=
  let t' := resetCustom t k
  match find t'.custom k with       -- std::unordered_set::insert keeps an existing element
  | some _ => t'
  | none => { t' with custom := (k, p) :: t'.custom }

/-- `getAll` (BVParametersTable.cpp:147-156): insertion of the standard entries into a copy of the
custom table, `insert` keeping existing elements. -/
def getAll (std : SetBV K) (t : Table K) : SetBV K :=
  std.foldl (fun s e => match find s e.1 with | some _ => s | none => e :: s) t.custom

/-- The modifying calls: `setCustom` and `resetCustom` with four or with one argument, `resetAll`,
`setAtomValence`, `resetAtomValences` (BVParametersTable.cpp:49-58, :106-138). -/
inductive Op (K : Type)
  | setCustom (a0 : Str) (v0 : Int) (a1 : Str) (v1 : Int) (p : Par K)
  | setCustomKey (k : Key) (p : Par K)
  | resetCustom (a0 : Str) (v0 : Int) (a1 : Str) (v1 : Int)
  | resetCustomKey (k : Key)
  | resetAll
  | setAtomValence (s : Str) (v : Int)
  | resetAtomValences

/-- One modifying call (same lines as `Op`). -/
def tstep (t : Table K) : Op K → Table K
  | .setCustom a0 v0 a1 v1 p => setCustom t (mkKey a0 v0 a1 v1) p
  | .setCustomKey k p => setCustom t k p
  | .resetCustom a0 v0 a1 v1 => resetCustom t (mkKey a0 v0 a1 v1)
  | .resetCustomKey k => resetCustom t k
  | .resetAll => { t with custom := [] }
  | .setAtomValence s v => { t with valence := put t.valence s v }
  | .resetAtomValences => { t with valence := [] }

/-! ### BVSCalculator -/

/-- What the calculator asks of a site: `siteAtomType`, `siteOccupancy`, `siteMultiplicity`
(StructureAdapter.hpp). -/
structure Site where
  sym : Str
  occ : ℝ
  mult : ℕ

/-- `mstructure_cache.baresymbols`, `mstructure_cache.valences` for one site
(BVSCalculator.cpp:187-201). -/
def symval (t : Table ℝ) (s : Site) : Str × Int := (atomBareSymbol s.sym, getAtomValence t s.sym)

/-- `pm0`, `pm1` (BVSCalculator.cpp:175-176). -/
def pm (v : Int) : ℝ := if v ≥ 0 then 1 else -1

/-- `addPairContribution` (BVSCalculator.cpp:163-182).  `mvalue` is a function of the site index, the
bond is its distance. -/
noncomputable def addPair (std : SetBV ℝ) (t : Table ℝ) (st : ℕ → Site) (val : ℕ → ℝ) (c : Contrib ℝ) : ℕ → ℝ :=
  let e0 := symval t (st c.i0)
  let e1 := symval t (st c.i1)
  match lookup std t e0.1 e0.2 e1.1 e1.2 with
  | none => val
  | some bp =>
    let half := bondvalence bp.2 c.bond / 2
    let val1 := Function.update val c.i0 (val c.i0 + c.scale * pm e0.2 * half * (st c.i1).occ)
    Function.update val1 c.i1 (val1 c.i1 + c.scale * pm e1.2 * half * (st c.i0).occ)

/-- The value after a serial evaluation: `resetValue` zeroes it (BVSCalculator.cpp:148-154,
PairQuantity.cpp resetValue), then every contribution is added in turn. -/
noncomputable def evalBVS (std : SetBV ℝ) (t : Table ℝ) (st : ℕ → Site) (trace : List (Contrib ℝ)) : ℕ → ℝ :=
  trace.foldl (addPair std t st) (fun _ => 0)

/-- The two nested loops over `allsymvals` (BVSCalculator.cpp:221-230): `sv1` starts at `sv0`. -/
def pairsFrom {α : Type} : List α → List (α × α)
  | [] => []
  | x :: xs => (x :: xs).map (fun y => (x, y)) ++ pairsFrom xs

/-- The element inserted for a lookup result: `none()` is a blank BVParam (BVParam.cpp:33-39). -/
def blankOr (r : Option (Key × Par ℝ)) : Key × Par ℝ := r.getD (⟨[], 0, [], 0⟩, ⟨0, 0, []⟩)

/-- `bpused` (BVSCalculator.cpp:219-231); `insert` keeps an existing element with the same key. -/
def bpUsed (std : SetBV ℝ) (t : Table ℝ) (svs : List (Str × Int)) : SetBV ℝ :=
  (pairsFrom svs).foldl (fun s e =>
    let bp := blankOr (lookup std t e.1.1 e.1.2 e.2.1 e.2.2)
    match find s bp.1 with | some _ => s | none => bp :: s) []

/-- `rmaxFromPrecision` (BVSCalculator.cpp:204-238).  `svs` is the unordered set `allsymvals` in
whatever order it is iterated. -/
noncomputable def rmaxFromPrecision (std : SetBV ℝ) (t : Table ℝ) (svs : List (Str × Int)) (eps : ℝ) : ℝ :=
  (bpUsed std t svs).foldl (fun rv e => max rv (bondvalenceToDistance e.2 eps)) 0

/-- `getRmaxUsed` (BVSCalculator.cpp:137-142). -/
noncomputable def rmaxUsed (std : SetBV ℝ) (t : Table ℝ) (svs : List (Str × Int)) (rmax eps : ℝ) : ℝ :=
  min rmax (rmaxFromPrecision std t svs eps)

/-- `bvdiff` (BVSCalculator.cpp:66-78), one element. -/
def bvdiff (t : Table ℝ) (st : ℕ → Site) (val : ℕ → ℝ) (i : ℕ) : ℝ :=
  |((symval t (st i)).2 : ℝ)| - |val i|

/-- `StructureAdapter::totalOccupancy` (StructureAdapter.cpp:36-45). -/
def totalOccupancy (st : ℕ → Site) (cnt : ℕ) : ℝ :=
  (List.range cnt).foldl (fun s i => s + (st i).occ * (st i).mult) 0

/-- `bvmsdiff` (BVSCalculator.cpp:81-95). -/
noncomputable def bvmsdiff (t : Table ℝ) (st : ℕ → Site) (cnt : ℕ) (val : ℕ → ℝ) : ℝ :=
  let sos := (List.range cnt).foldl (fun s i =>
    s + (st i).mult * (st i).occ * bvdiff t st val i * bvdiff t st val i) 0
  if totalOccupancy st cnt > 0 then sos / totalOccupancy st cnt else 0

/-- `bvrmsdiff` (BVSCalculator.cpp:98-102). -/
noncomputable def bvrmsdiff (t : Table ℝ) (st : ℕ → Site) (cnt : ℕ) (val : ℕ → ℝ) : ℝ :=
  Real.sqrt (bvmsdiff t st cnt val)

end Verif.BV
