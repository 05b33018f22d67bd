import Verif.Lemmas.AssocMap
import Verif.Model.Evaluator
import Mathlib.Algebra.Order.Floor.Ring
import Mathlib.Algebra.Order.Field.Basic
/-!
Model of OverlapCalculator (src/diffpy/srreal/OverlapCalculator.cpp).  Doubles are elements of an ordered
field `K` with floor.  `mvalue` is the flat array of chunks of six numbers as in the code.
-/
namespace Verif.Overlap
open Verif.AssocMap Verif.Eval

variable {K : Type} [Field K] [LinearOrder K] [FloorRing K]

/-- `CHUNK_SIZE` and the offsets (OverlapCalculator.cpp:37-45). -/
def chunkSize : Nat := 6
def offDistance : Nat := 0
def offDirection : Nat := 1
def offSite0 : Nat := 4
def offSite1 : Nat := 5

/-- A bond as the generator presents it: `distance()` and `r01()`. -/
structure Bnd (K : Type) where
  d : K
  x : K
  y : K
  z : K
deriving DecidableEq, Repr

/-- What the calculator asks of the structure: number of sites, occupancy, multiplicity and type of a site
(StructureAdapter.hpp), and `mstructure_cache.siteradii`. -/
structure Stru (K : Type) where
  cnt : Nat
  occ : Nat → K
  mult : Nat → Nat
  typ : Nat → String
  radius : Nat → K

/-- `int(x)` of a stored site index: truncation of a non-negative number. -/
def toIdx (x : K) : Nat := ⌊x⌋.toNat

/-- `count` (OverlapCalculator.cpp:460-464). -/
def count (mv : List K) : Nat := mv.length / chunkSize

/-- `subvalue` (OverlapCalculator.cpp:484-489). -/
def subvalue (mv : List K) (offset index : Nat) : K := mv.getD (offset + chunkSize * index) 0

/-- Site of chunk `index` (`int(this->subvalue(SITE0_OFFSET, index))`). -/
def site0 (mv : List K) (index : Nat) : Nat := toIdx (subvalue mv offSite0 index)
def site1 (mv : List K) (index : Nat) : Nat := toIdx (subvalue mv offSite1 index)

/-- `addPairContribution` (OverlapCalculator.cpp:432-446). -/
def addPair (mv : List K) (c : Contrib (Bnd K)) : List K :=
  mv ++ [c.bond.d, c.bond.x, c.bond.y, c.bond.z, (c.i0 : K), (c.i1 : K)]

/-- `mvalue` after `resetValue` (OverlapCalculator.cpp:415-422) and all contributions of a trace. -/
def evalOverlap (tr : List (Contrib (Bnd K))) : List K := tr.foldl addPair []

/-- `executeParallelMerge` (OverlapCalculator.cpp:449-456). -/
def merge (mv pvalue : List K) : List K := mv ++ pvalue

/-- `suboverlap` (OverlapCalculator.cpp:502-520). -/
def suboverlap (s : Stru K) (mv : List K) (index flipi flipj : Nat) : K :=
  let i := site0 mv index
  let j := site1 mv index
  let radiusi := if flipi = flipj then s.radius i else if i = flipi then s.radius flipj
    else if i = flipj then s.radius flipi else s.radius i
  let radiusj := if flipi = flipj then s.radius j else if j = flipi then s.radius flipj
    else if j = flipj then s.radius flipi else s.radius j
  let dij := subvalue mv offDistance index
  let sepij := radiusi + radiusj
  if dij < sepij then sepij - dij else 0

/-- `suboverlap(index)` with the default arguments (OverlapCalculator.hpp). -/
def suboverlap0 (s : Stru K) (mv : List K) (index : Nat) : K := suboverlap s mv index 0 0

/-- Indices of the chunks with positive overlap: the loops `for index < n; if (olp <= 0.0) continue`. -/
def overlapping (s : Stru K) (mv : List K) : List Nat :=
  (List.range (count mv)).filter fun idx => !decide (suboverlap0 s mv idx ≤ 0)

/-- `overlaps` (OverlapCalculator.cpp:80-92). -/
def overlaps (s : Stru K) (mv : List K) : List K := (overlapping s mv).map (suboverlap0 s mv)

/-- `distances` (OverlapCalculator.cpp:95-98, :467-481). -/
def distances (s : Stru K) (mv : List K) : List K := (overlapping s mv).map (subvalue mv offDistance)

/-- `sites0`, `sites1` (OverlapCalculator.cpp:115-126). -/
def sites0 (s : Stru K) (mv : List K) : List Nat := (overlapping s mv).map (site0 mv)
def sites1 (s : Stru K) (mv : List K) : List Nat := (overlapping s mv).map (site1 mv)

/-- `directions` (OverlapCalculator.cpp:101-112, subdirection :492-499). -/
def directions (s : Stru K) (mv : List K) : List (K × K × K) :=
  (overlapping s mv).map fun idx => (subvalue mv offDirection idx, subvalue mv (offDirection + 1) idx, subvalue mv (offDirection + 2) idx)

/-- `siteSquareOverlaps` (OverlapCalculator.cpp:141-159). -/
def siteSquareOverlaps (s : Stru K) (mv : List K) : List K :=
  ((overlapping s mv).foldl (fun rv idx =>
    let olp := suboverlap0 s mv idx
    let sqoverlap := olp * olp
    rv.modify (site0 mv idx) (· + sqoverlap * s.occ (site1 mv idx))) (List.replicate s.cnt 0)).map (· / 2)

/-- `totalSquareOverlap` (OverlapCalculator.cpp:162-173). -/
def totalSquareOverlap (s : Stru K) (mv : List K) : K :=
  let sq := siteSquareOverlaps s mv
  (List.range s.cnt).foldl (fun rv i => rv + sq.getD i 0 * (s.mult i : K) * s.occ i) 0

/-- `StructureAdapter::totalOccupancy` (StructureAdapter.cpp:36-45). -/
def totalOccupancy (s : Stru K) : K :=
  (List.range s.cnt).foldl (fun r i => r + s.occ i * (s.mult i : K)) 0

/-- `meanSquareOverlap` (OverlapCalculator.cpp:176-181). -/
def meanSquareOverlap (s : Stru K) (mv : List K) : K :=
  if totalOccupancy s > 0 then totalSquareOverlap s mv / totalOccupancy s else 0

/-- `mneighborids` and `mneighborids_cached` (OverlapCalculator.hpp). -/
structure Cache where
  ids : List (Nat × List Nat)
  cached : Bool
deriving DecidableEq, Repr

/-- `getNeighborIds` (OverlapCalculator.cpp:540-561): fills the cache if needed, then looks `k` up. -/
def fillCache (c : Cache) (mv : List K) : Cache :=
  if c.cached then c
  else ⟨(List.range (count mv)).foldl (fun m idx =>
      put m (site0 mv idx) ((find m (site0 mv idx)).getD [] ++ [idx])) c.ids, true⟩

def getNeighborIds (c : Cache) (mv : List K) (k : Nat) : List Nat := (find (fillCache c mv).ids k).getD []

/-- Cache after `resetValue` (OverlapCalculator.cpp:415-422). -/
def freshCache : Cache := ⟨[], false⟩

/-- Cache after saving and loading the calculator: `mneighborids` is archived, `mneighborids_cached` is not
and has the value set by the constructor (OverlapCalculator.hpp serialize, OverlapCalculator.cpp:63-76). -/
def reload (c : Cache) : Cache := ⟨c.ids, false⟩

/-- `flipDiffTotal` (OverlapCalculator.cpp:184-217); `none` for the thrown invalid_argument.  `allids` is a
set of integers; `order` is the order in which it is iterated. -/
def flipDiffTotal (s : Stru K) (c : Cache) (mv : List K) (order : List Nat → List Nat) (i j : Int) : Option K :=
  if i < 0 ∨ i ≥ s.cnt ∨ j < 0 ∨ j ≥ s.cnt then none
  else
    let i := i.toNat
    let j := j.toNat
    if i = j ∨ s.radius i = s.radius j then some 0
    else
      let allids := order ((getNeighborIds c mv j).foldl (fun t x => (setInsert t x).1)
        ((getNeighborIds c mv i).foldl (fun t x => (setInsert t x).1) []))
      some (allids.foldl (fun rv idx =>
        let i1 := site0 mv idx
        let j1 := site1 mv idx
        let sqscale := (if i1 = j1 then 1 else 2) * s.occ i1 * s.occ j1 * (s.mult i1 : K) / 2
        let olp0 := suboverlap0 s mv idx
        let olp1 := suboverlap s mv idx i j
        rv - sqscale * olp0 * olp0 + sqscale * olp1 * olp1) 0)

/-- `flipDiffMean` (OverlapCalculator.cpp:220-225). -/
def flipDiffMean (s : Stru K) (c : Cache) (mv : List K) (order : List Nat → List Nat) (i j : Int) : Option K :=
  if totalOccupancy s > 0 then (flipDiffTotal s c mv order i j).map (· / totalOccupancy s) else some 0

/-- `gradients` (OverlapCalculator.cpp:228-246), one Cartesian component (`off` is 1, 2 or 3). -/
def gradients (s : Stru K) (mv : List K) (off : Nat) : List K :=
  (overlapping s mv).foldl (fun rv idx =>
    let olp := suboverlap0 s mv idx
    let dst := subvalue mv offDistance idx
    rv.modify (site1 mv idx) (· + (-2 * olp / dst) * subvalue mv off idx)) (List.replicate s.cnt 0)

/-- `getNeighborSites` (OverlapCalculator.cpp:249-263). -/
def getNeighborSites (s : Stru K) (c : Cache) (mv : List K) (i : Nat) : List Nat :=
  ((getNeighborIds c mv i).filter fun idx => !decide (suboverlap0 s mv idx ≤ 0)).foldl
    (fun t idx => (setInsert t (site1 mv idx)).1) []

/-- `coordinations` (OverlapCalculator.cpp:266-280). -/
def coordinations (s : Stru K) (mv : List K) : List K :=
  (overlapping s mv).foldl (fun rv idx => rv.modify (site0 mv idx) (· + s.occ (site1 mv idx)))
    (List.replicate s.cnt 0)

/-- `coordinationByTypes` (OverlapCalculator.cpp:283-310). -/
def coordinationByTypes (s : Stru K) (c : Cache) (mv : List K) (i : Nat) : List (String × K) :=
  ((getNeighborIds c mv i).filter fun idx => !decide (suboverlap0 s mv idx ≤ 0)).foldl (fun rv idx =>
    let j0 := site0 mv idx
    let j1 := site1 mv idx
    if j0 = i then put rv (s.typ j1) ((find rv (s.typ j1)).getD 0 + s.occ j1)
    else put rv (s.typ j0) ((find rv (s.typ j0)).getD 0 + s.occ j0 * (s.mult j0 : K) / (s.mult j1 : K))) []

/-- `maxseparation` (OverlapCalculator.cpp:533-536). -/
def maxSeparation (s : Stru K) : K :=
  match (List.range s.cnt).map s.radius with
  | [] => 2 * 0
  | r :: rs => 2 * rs.foldl max r

/-! ### neighborhoods -/

/-- The shared pointers `rvptr` and the sets they point to (OverlapCalculator.cpp:316-318); `next` is the
next unused address. -/
structure Heap where
  ptr : Nat → Option Nat
  set : Nat → List Nat
  next : Nat

def setPtr (h : Heap) (x p : Nat) : Heap := { h with ptr := Function.update h.ptr x (some p) }
def insertAt (h : Heap) (p x : Nat) : Heap := { h with set := Function.update h.set p (setInsert (h.set p) x).1 }

/-- `rvptr[x].reset(new SiteSet); rvptr[x]->insert(x)` (OverlapCalculator.cpp:328-329, :350). -/
def newSet (h : Heap) (x : Nat) : Heap :=
  { ptr := Function.update h.ptr x (some h.next), set := Function.update h.set h.next [x], next := h.next + 1 }

/-- The unification loop (OverlapCalculator.cpp:339-345). -/
def unify (p0 : Nat) (h : Heap) : List Nat → Heap
  | [] => h
  | x :: xs => unify p0 (setPtr (insertAt h p0 x) x p0) xs

/-- Body of the loop over overlapping pairs (OverlapCalculator.cpp:324-346). -/
def link (h : Heap) (j0 j1 : Nat) : Heap :=
  let h1 := if (h.ptr j0).isNone then newSet h j0 else h
  let p0 := (h1.ptr j0).getD 0
  let h2 := if (h1.ptr j1).isNone then setPtr (insertAt h1 p0 j1) j1 p0 else h1
  if h2.ptr j0 = h2.ptr j1 then h2
  else unify p0 h2 (h2.set ((h2.ptr j1).getD 0))

/-- `initsiteset` (OverlapCalculator.cpp:348-353). -/
def initSet (hc : Heap × Nat) (i : Nat) : Heap × Nat :=
  if (hc.1.ptr i).isNone then (newSet hc.1 i, hc.2 + 1) else hc

/-- Inner loop of the self-neighborhoods (OverlapCalculator.cpp:360-366). -/
def selfInner (mask : Nat → Nat → Bool) (j0 : Nat) : Heap × Nat → List Nat → Heap × Nat
  | hc, [] => hc
  | hc, j1 :: js =>
    if (hc.1.ptr j0).isSome && (hc.1.ptr j1).isSome then selfInner mask j0 hc js
    else if !mask j0 j1 then selfInner mask j0 hc js
    else selfInner mask j0 (initSet (initSet hc j0) j1) js

/-- Outer loop (OverlapCalculator.cpp:358-367). -/
def selfOuter (mask : Nat → Nat → Bool) (n : Nat) : Heap × Nat → List Nat → Heap × Nat
  | hc, [] => hc
  | hc, j0 :: js =>
    if hc.2 < n then selfOuter mask n (selfInner mask j0 hc ((List.range n).filter fun j1 => decide (j0 ≤ j1))) js
    else hc

/-- Collection of the distinct sets (OverlapCalculator.cpp:368-376). -/
def collect (h : Heap) : List Nat → List Nat → List (List Nat)
  | _, [] => []
  | dup, x :: xs =>
    match h.ptr x with
    | none => collect h dup xs
    | some p => if p ∈ dup then collect h dup xs else h.set p :: collect h (p :: dup) xs

/-- `neighborhoods` (OverlapCalculator.cpp:313-378); `edges` are the site pairs of the overlapping bonds,
`mask` is `getPairMask`. -/
def neighborhoodsOf (n : Nat) (mask : Nat → Nat → Bool) (edges : List (Nat × Nat)) : List (List Nat) :=
  let h := edges.foldl (fun h e => link h e.1 e.2) ⟨fun _ => none, fun _ => [], 0⟩
  let cnt := ((List.range n).filter fun i => (h.ptr i).isSome).length
  let r := selfOuter mask n (h, cnt) (List.range n)
  collect r.1 [] (List.range n)

def neighborhoods (s : Stru K) (mv : List K) (mask : Nat → Nat → Bool) : List (List Nat) :=
  neighborhoodsOf s.cnt mask ((overlapping s mv).map fun idx => (site0 mv idx, site1 mv idx))

end Verif.Overlap
