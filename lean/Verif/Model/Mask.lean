import Mathlib.Data.String.Basic
import Verif.Model.AssocMap
/-
Model of the pair masks of `PairQuantity` (src/diffpy/srreal/PairQuantity.cpp).
-/
namespace Verif.Mask
open Verif.AssocMap

/-- Type-mask key, `pair<string,string>`. -/
abbrev TKey := String × String

/-- Mask data of `PairQuantity` (PairQuantity.hpp:119-124): `mdefaultpairmask`,
`minvertpairmask`, `msiteallmask`, `mtypemask`; the atom types of the current `mstructure`
(one entry per site, so its length is `countSites()`), and the number of
`mticker.click()` calls so far. -/
structure State where
  dflt : Bool
  inv : List (Int × Int)
  site : List (Int × Bool)
  typ : List (TKey × Bool)
  types : List String
  clicks : Nat
deriving Repr, DecidableEq

/-- State after the constructor (PairQuantity.cpp:39-51) with an empty structure. -/
def init : State := ⟨true, [], [], [], [], 0⟩

/-- `ALLATOMSSTR` (PairQuantity.cpp:35). -/
def allStr : String := "all"

/-- `mticker.click()`. -/
def State.click (s : State) : State := { s with clicks := s.clicks + 1 }

/-- The normalised index pair (PairQuantity.cpp:266, :483). -/
def norm (i j : Int) : Int × Int := if i > j then (j, i) else (i, j)

/-- The normalised type pair (PairQuantity.cpp:287-288, :327-332). -/
def tnorm (a b : String) : TKey := if a > b then (b, a) else (a, b)

/-- `PairQuantity::setPairMaskValue` (PairQuantity.cpp:480-489): new state and return value. -/
def setPairMaskValue (s : State) (i j : Int) (mask : Bool) : State × Bool :=
  let ij := norm i j
  let r := if mask == s.dflt then setErase s.inv ij else setInsert s.inv ij
  ({ s with inv := r.1 }, r.2)

/-- `PairQuantity::getPairMask` (PairQuantity.cpp:264-270). -/
def getPairMask (s : State) (i j : Int) : Bool :=
  if norm i j ∈ s.inv then !s.dflt else s.dflt

/-- `PairQuantity::maskAllPairs` (PairQuantity.cpp:183-192). -/
def maskAllPairs (s : State) (mask : Bool) : State :=
  let nochange := s.inv.isEmpty && s.site.isEmpty && s.typ.isEmpty && (s.dflt == mask)
  let s1 := if !nochange then s.click else s
  { s1 with inv := [], site := [], typ := [], dflt := mask }

/-- `PairQuantity::invertMask` (PairQuantity.cpp:195-209). -/
def invertMask (s : State) : State :=
  { s.click with
    dflt := !s.dflt
    site := s.site.map (fun e => (e.1, !e.2))
    typ := s.typ.map (fun e => (e.1, !e.2)) }

/-- The loop of PairQuantity.cpp:238-241 and :431-434: `setPairMaskValue(k, l, mask)` for all
sites `l`. -/
def setRow (s : State) (k : Int) (mask : Bool) : State :=
  (List.range s.types.length).foldl (fun (s : State) (l : Nat) => (setPairMaskValue s k (l : Int) mask).1) s

/-- Removal of a contradicting site-all mask of site `k` (PairQuantity.cpp:247-252, :253-258):
the new `msiteallmask` and whether it was modified. -/
def dropSite (st : List (Int × Bool)) (k : Int) (mask : Bool) : List (Int × Bool) × Bool :=
  match find st k with
  | some v => if mask != v then (erase st k, true) else (st, false)
  | none => (st, false)

/-- The branch of `setPairMask` with one all-atoms index (PairQuantity.cpp:223-244). -/
def setSiteAllMask (s : State) (k : Int) (mask : Bool) : State :=
  let modified := (find s.site k != some mask) || !s.typ.isEmpty
  let s3 := setRow { s with typ := [], site := put s.site k mask } k mask
  if modified then s3.click else s3

/-- The branch of `setPairMask` for two sites (PairQuantity.cpp:223-228, :245-260). -/
def setOnePairMask (s : State) (i j : Int) (mask : Bool) : State :=
  let d1 := dropSite s.site i mask
  let d2 := dropSite d1.1 j mask
  let r := setPairMaskValue { s with typ := [], site := d2.1 } i j mask
  let modified := !s.typ.isEmpty || d1.2 || d2.2 || r.2
  if modified then r.1.click else r.1

/-- `PairQuantity::setPairMask` (PairQuantity.cpp:212-261). -/
def setPairMask (s : State) (i j : Int) (mask : Bool) : State :=
  if i < 0 ∧ j < 0 then maskAllPairs s mask
  else if i < 0 then setSiteAllMask s j mask
  else if j < 0 then setSiteAllMask s i mask
  else setOnePairMask s i j mask

/-- The replacement of the upper-case "ALL" by "all" (PairQuantity.cpp:276-285). -/
def canonAll (a : String) : String := if a = "ALL" then allStr else a

/-- `eraseitem` of PairQuantity.cpp:307-308: the key contains the type `sk` and is not the key
`ab` being set. -/
def eraseKey (sk : String) (ab k : TKey) : Bool :=
  !decide (k = ab) && (decide (sk = k.1) || decide (sk = k.2))

/-- `PairQuantity::setTypeMask` after normalisation of "ALL" (PairQuantity.cpp:286-322). -/
def setTypeMask' (s : State) (a b : String) (mask : Bool) : State :=
  let ab := tnorm a b
  if ab = (allStr, allStr) then maskAllPairs s mask
  else
    let withAll := decide (a = allStr) || decide (b = allStr)
    let sk := if a ≠ allStr then a else b
    let typ2 := s.typ.filter (fun e => !(withAll && eraseKey sk ab e.1))
    let modified := s.typ.any (fun e => withAll && eraseKey sk ab e.1 && (mask != e.2)) ||
      (find typ2 ab != some mask)
    let s3 := { s with site := [], typ := put typ2 ab mask }
    if modified then s3.click else s3

/-- `PairQuantity::setTypeMask` (PairQuantity.cpp:274-322). -/
def setTypeMask (s : State) (a b : String) (mask : Bool) : State :=
  setTypeMask' s (canonAll a) (canonAll b) mask

/-- `PairQuantity::getTypeMask` (PairQuantity.cpp:325-338). -/
def getTypeMask (s : State) (a b : String) : Bool :=
  (find s.typ (tnorm a b)).getD
    ((find s.typ (tnorm a allStr)).getD
      ((find s.typ (tnorm b allStr)).getD s.dflt))

/-- `PairQuantity::hasTypeMask` (PairQuantity.cpp:399-402). -/
def hasTypeMask (s : State) : Bool := !s.typ.isEmpty

/-- `PairQuantity::hasMask` (PairQuantity.cpp:384-389). -/
def hasMask (s : State) : Bool := !(s.dflt && s.inv.isEmpty && s.site.isEmpty && s.typ.isEmpty)

/-- `PairQuantity::hasPairMask` (PairQuantity.cpp:392-396). -/
def hasPairMask (s : State) : Bool := hasMask s && !hasTypeMask s

/-- `siteindices[t]` built in PairQuantity.cpp:441-447.  Simplification: an atom whose type
is literally "all" would be listed twice under "all" in the code and once here. -/
def siteIndices (types : List String) (t : String) : List Nat :=
  (List.range types.length).filter (fun i => decide (t = allStr) || decide (types[i]? = some t))

/-- `hasall` of a type key (PairQuantity.cpp:455-456). -/
def hasAll (k : TKey) : Bool := decide (allStr = k.1) || decide (allStr = k.2)

/-- `orderedpairs` (PairQuantity.cpp:452-459) for the iteration order `tord` of `mtypemask`. -/
def orderedPairs (tord : List (TKey × Bool)) : List TKey :=
  tord.foldl (fun acc e => if hasAll e.1 then e.1 :: acc else acc ++ [e.1]) []

/-- Pairs visited by the double loop with `jj` starting at `ii` (PairQuantity.cpp:467-474 when
both lists are the same object). -/
def halfPairs : List Nat → List (Nat × Nat)
  | [] => []
  | i :: rest => (i :: rest).map (fun j => (i, j)) ++ halfPairs rest

/-- Pairs of sites visited for the type pair `tp` (PairQuantity.cpp:463-474). -/
def typePairs (types : List String) (tp : TKey) : List (Nat × Nat) :=
  let isites := siteIndices types tp.1
  let jsites := siteIndices types tp.2
  if tp.1 = tp.2 then halfPairs isites
  else isites.flatMap (fun i => jsites.map (fun j => (i, j)))

/-- Inner double loop (PairQuantity.cpp:463-474) for one type pair. -/
def applyTypePair (s : State) (tp : TKey) : State :=
  let msk := (find s.typ tp).getD s.dflt  -- `.at` never fails: keys come from the map itself
  (typePairs s.types tp).foldl
    (fun (s : State) (p : Nat × Nat) => (setPairMaskValue s p.1 p.2 msk).1) s

/-- `PairQuantity::updateMaskData` (PairQuantity.cpp:422-477).  `sord`, `tord` are the iteration
orders of the unordered containers `msiteallmask` and `mtypemask`. -/
def updateMaskData (sord : List (Int × Bool)) (tord : List (TKey × Bool)) (s : State) : State :=
  if s.typ.isEmpty then sord.foldl (fun s e => setRow s e.1 e.2) s
  else (orderedPairs tord).foldl applyTypePair { s with inv := [] }

/-- `PairQuantity::setStructure` restricted to mask data (PairQuantity.cpp:69-75).
Simplification: `customPQConfig` does nothing here. -/
def setStructure (sord : List (Int × Bool)) (tord : List (TKey × Bool)) (s : State)
    (types : List String) : State :=
  updateMaskData sord tord { s with types := types }

/-- The public calls that change the mask data. -/
inductive Op
  | maskAll (m : Bool)
  | invert
  | pair (i j : Int) (m : Bool)
  | typ (a b : String) (m : Bool)
  /-- set a structure with these atom types; the container iteration orders are inputs -/
  | stru (types : List String) (sord : List (Int × Bool)) (tord : List (TKey × Bool))

/-- Perform one call. -/
def step (s : State) : Op → State
  | .maskAll m => maskAllPairs s m
  | .invert => invertMask s
  | .pair i j m => setPairMask s i j m
  | .typ a b m => setTypeMask s a b m
  | .stru types sord tord => setStructure sord tord s types

/-- Iteration orders given with a call are permutations of the container contents. -/
def Op.Valid (s : State) : Op → Prop
  | .stru _ sord tord => sord.Perm s.site ∧ tord.Perm s.typ
  | _ => True

/-- Reachable mask states. -/
inductive Reach : State → Prop
  | init : Reach init
  | step {s : State} (h : Reach s) (op : Op) (hv : op.Valid s) : Reach (step s op)

end Verif.Mask
