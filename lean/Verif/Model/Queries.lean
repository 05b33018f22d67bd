import Verif.Lemmas.AssocMap
import Mathlib.Algebra.Order.Field.Basic
import Mathlib.Data.List.Dedup
/-!
Model of the result queries of OverlapCalculator, BVSCalculator and BondCalculator as reads of memory.

A calculator keeps the results of the last evaluation (records of bonds, cached radii or valences) and a
shared pointer to the structure, which the user can edit afterwards.  A query combines the two.  Every
access `v[i]` of the C++ code is checked here: `none` stands for an access outside an array, which is
undefined behaviour (the `assert`s are disabled in release builds).

Simplifications: doubles are elements of an ordered field, the flat array `mvalue` of OverlapCalculator is
a list of records (see `Overlap` for the flat form), site indices are natural numbers, a `vector` result of
`neighborhoods` is represented only by the accesses it makes.
-/
namespace Verif.Queries
open Verif.AssocMap

/-- Read `v[i]`; `none` outside the array. -/
def rd {α : Type} (v : List α) (i : Nat) : Option α := v[i]?

/-- Update `v[i]`; `none` outside the array. -/
def upd {α : Type} (v : List α) (i : Nat) (f : α → α) : Option (List α) :=
  if i < v.length then some (v.modify i f) else none

/-- A site as the structure adapter presents it now (AtomicStructureAdapter.cpp:117-150 read `matoms[idx]`;
`siteMultiplicity` StructureAdapter.cpp). -/
structure Site (K : Type) where
  typ : String
  occ : K
  mult : K

/-- A record of a bond: the chunk of six numbers (OverlapCalculator.cpp:37-45) or a `BondEntry`
(BondCalculator.hpp). -/
structure Rec (K : Type) where
  d : K
  dir : K × K × K
  i : Nat
  j : Nat

/-- What OverlapCalculator keeps from the last evaluation: `mvalue`, `mstructure_cache.siteradii` and the
lazily filled `mneighborids` with its flag (OverlapCalculator.hpp:109-117). -/
structure Olp (K : Type) where
  recs : List (Rec K)
  radii : List K
  nbrs : List (Nat × List Nat) := []
  cached : Bool := false

variable {K : Type} [Field K] [LinearOrder K]

/-- `suboverlap(index, flipi, flipj)` (OverlapCalculator.cpp:502-520). -/
def suboverlap (o : Olp K) (r : Rec K) (fi fj : Nat) : Option K := do
  let ri ← rd o.radii (if fi = fj then r.i else if r.i = fi then fj else if r.i = fj then fi else r.i)
  let rj ← rd o.radii (if fi = fj then r.j else if r.j = fi then fj else if r.j = fj then fi else r.j)
  let sep := ri + rj
  return if r.d < sep then sep - r.d else 0

/-- The loop `for index < n; if (suboverlap(index) <= 0) continue;` over records `rs`, with a body that
gives the records and their overlaps. -/
def loop (o : Olp K) : List (Rec K) → Option (List (Rec K × K))
  | [] => some []
  | r :: rs => do
    let olp ← suboverlap o r 0 0
    let rest ← loop o rs
    return if olp ≤ 0 then rest else (r, olp) :: rest

/-- `overlaps` (OverlapCalculator.cpp:79-90). -/
def overlaps (o : Olp K) : Option (List K) := (loop o o.recs).map (·.map (·.2))

/-- `distances` (OverlapCalculator.cpp:93-96 with subvector :467-481). -/
def distances (o : Olp K) : Option (List K) := (loop o o.recs).map (·.map (·.1.d))

/-- `directions` (OverlapCalculator.cpp:101-112). -/
def directions (o : Olp K) : Option (List (K × K × K)) := (loop o o.recs).map (·.map (·.1.dir))

/-- `sites0` (OverlapCalculator.cpp:115-119). -/
def sites0 (o : Olp K) : Option (List Nat) := (loop o o.recs).map (·.map (·.1.i))

/-- `sites1` (OverlapCalculator.cpp:122-126). -/
def sites1 (o : Olp K) : Option (List Nat) := (loop o o.recs).map (·.map (·.1.j))

/-- `siteIndicesToTypes` (StructureAdapter.hpp:121-134). -/
def indicesToTypes (L : List (Site K)) : List Nat → Option (List String)
  | [] => some []
  | i :: is => do
    let s ← rd L i
    let rest ← indicesToTypes L is
    return s.typ :: rest

/-- `types0` (OverlapCalculator.cpp:129-132). -/
def types0 (o : Olp K) (L : List (Site K)) : Option (List String) := sites0 o >>= indicesToTypes L

/-- `types1` (OverlapCalculator.cpp:135-138). -/
def types1 (o : Olp K) (L : List (Site K)) : Option (List String) := sites1 o >>= indicesToTypes L

/-- A loop that adds to `rv[at]` an amount that depends on the record, its overlap and the live site `src`. -/
def accum (L : List (Site K)) (at' src : Rec K → Nat) (amount : K → Site K → K) :
    List (Rec K × K) → List K → Option (List K)
  | [], rv => some rv
  | (r, olp) :: rs, rv => do
    let s ← rd L (src r)
    let rv1 ← upd rv (at' r) (· + amount olp s)
    accum L at' src amount rs rv1

/-- `siteSquareOverlaps` (OverlapCalculator.cpp:141-159): `rv` has the present number of sites. -/
def siteSquareOverlaps (o : Olp K) (L : List (Site K)) : Option (List K) := do
  let rs ← loop o o.recs
  let rv ← accum L (·.i) (·.j) (fun olp s => olp * olp * s.occ) rs (List.replicate L.length 0)
  return rv.map (· / 2)

/-- `coordinations` (OverlapCalculator.cpp:266-280). -/
def coordinations (o : Olp K) (L : List (Site K)) : Option (List K) := do
  let rs ← loop o o.recs
  accum L (·.i) (·.j) (fun _ s => s.occ) rs (List.replicate L.length 0)

/-- `totalOccupancy` of the live structure (StructureAdapter.cpp:36-45). -/
def totalOccupancy (L : List (Site K)) : K := (L.map fun s => s.occ * s.mult).sum

/-- `totalSquareOverlap` (OverlapCalculator.cpp:162-173); both arrays have the present number of sites. -/
def totalSquareOverlap (o : Olp K) (L : List (Site K)) : Option K := do
  let sq ← siteSquareOverlaps o L
  return (List.zipWith (fun x (s : Site K) => x * s.mult * s.occ) sq L).sum

/-- `meanSquareOverlap` (OverlapCalculator.cpp:176-181). -/
def meanSquareOverlap (o : Olp K) (L : List (Site K)) : Option K :=
  if totalOccupancy L > 0 then (totalSquareOverlap o L).map (· / totalOccupancy L) else some 0

/-- The loop of `gradients` (OverlapCalculator.cpp:235-245). -/
def gradLoop : List (Rec K × K) → List (K × K × K) → Option (List (K × K × K))
  | [], rv => some rv
  | (r, olp) :: rs, rv => do
    let g := -2 * olp / r.d
    let rv1 ← upd rv r.j fun v => (v.1 + g * r.dir.1, v.2.1 + g * r.dir.2.1, v.2.2 + g * r.dir.2.2)
    gradLoop rs rv1

/-- `gradients` (OverlapCalculator.cpp:228-246). -/
def gradients (o : Olp K) (L : List (Site K)) : Option (List (K × K × K)) := do
  let rs ← loop o o.recs
  gradLoop rs (List.replicate L.length (0, 0, 0))

/-- Body of the loop that fills `mneighborids` (OverlapCalculator.cpp:549-553). -/
def addNbr (recs : List (Rec K)) (m : List (Nat × List Nat)) (idx : Nat) : List (Nat × List Nat) :=
  match recs[idx]? with
  | none => m
  | some r => put m r.i ((find m r.i).getD [] ++ [idx])

/-- The lazy cache of `getNeighborIds` (OverlapCalculator.cpp:545-555). -/
def fill (o : Olp K) : Olp K :=
  if o.cached then o
  else { o with nbrs := (List.range o.recs.length).foldl (addNbr o.recs) o.nbrs, cached := true }

/-- `getNeighborIds(k)` (OverlapCalculator.cpp:540-561), the list; the new cache is `fill`. -/
def neighborIds (o : Olp K) (k : Nat) : List Nat := (find (fill o).nbrs k).getD []

/-- The records with the given indices (`subvalue(…, *idx)`, OverlapCalculator.cpp:484-489). -/
def recsAt (o : Olp K) : List Nat → Option (List (Rec K))
  | [] => some []
  | i :: is => do
    let r ← rd o.recs i
    let rest ← recsAt o is
    return r :: rest

/-- `getNeighborSites(i)` (OverlapCalculator.cpp:249-263), as a list. -/
def neighborSites (o : Olp K) (i : Nat) : Option (List Nat) := do
  let rs ← recsAt o (neighborIds o i)
  let ls ← loop o rs
  return ls.map (·.1.j)

/-- The loop of `coordinationByTypes` (OverlapCalculator.cpp:289-308). -/
def byTypeLoop (L : List (Site K)) (i : Nat) : List (Rec K × K) → List (String × K) → Option (List (String × K))
  | [], rv => some rv
  | (r, _) :: rs, rv => do
    let rv1 ← if r.i = i then do
        let s ← rd L r.j
        pure (put rv s.typ ((find rv s.typ).getD 0 + s.occ))
      else do
        let s ← rd L r.i
        let t ← rd L r.j
        pure (put rv s.typ ((find rv s.typ).getD 0 + s.occ * s.mult / t.mult))
    byTypeLoop L i rs rv1

/-- `coordinationByTypes(i)` (OverlapCalculator.cpp:283-310). -/
def coordinationByTypes (o : Olp K) (L : List (Site K)) (i : Nat) : Option (List (String × K)) := do
  let rs ← recsAt o (neighborIds o i)
  let ls ← loop o rs
  byTypeLoop L i ls []

/-- The loop of `flipDiffTotal` (OverlapCalculator.cpp:203-215). -/
def flipLoop (o : Olp K) (L : List (Site K)) (i j : Nat) : List (Rec K) → K → Option K
  | [], rv => some rv
  | r :: rs, rv => do
    let a ← rd L r.i
    let b ← rd L r.j
    let sq := (if r.i = r.j then 1 else 2) * a.occ * b.occ * a.mult / 2
    let olp0 ← suboverlap o r 0 0
    let olp1 ← suboverlap o r i j
    flipLoop o L i j rs (rv - sq * olp0 * olp0 + sq * olp1 * olp1)

/-- Outcome of `flipDiffTotal`: the exception "Index out of range" or a number. -/
inductive Flip (K : Type)
  | rejected
  | num (x : K)

/-- `flipDiffTotal(i, j)` (OverlapCalculator.cpp:184-217) for non-negative indices, with the union of the two
lists of indices in the order `order` of the hash set.  The check uses the present number of sites, the
radii are those of the evaluation. -/
def flipDiffTotal (o : Olp K) (L : List (Site K)) (order : List Nat → List Nat) (i j : Nat) : Option (Flip K) :=
  if i ≥ L.length ∨ j ≥ L.length then some .rejected
  else do
    let same ← if i = j then pure true else do
      let a ← rd o.radii i
      let b ← rd o.radii j
      pure (decide (a = b))
    if same then return .num 0
    else
      let rs ← recsAt o (order ((neighborIds o i) ++ (neighborIds o j)).dedup)
      let x ← flipLoop o L i j rs 0
      return .num x

/-- The accesses of `neighborhoods` (OverlapCalculator.cpp:313-346) to the array of pointers, which has the
present number of sites: the sites of every overlapping record. -/
def nbhAccesses : List (Rec K × K) → List (Option Unit) → Option Unit
  | [], _ => some ()
  | (r, _) :: rs, a => do
    let _ ← rd a r.i
    let _ ← rd a r.j
    nbhAccesses rs a

/-- `neighborhoods` (OverlapCalculator.cpp:313-378): whether it stays within its array.  The sets hold only
sites of overlapping records, and the loops over all sites run to the present number of sites. -/
def neighborhoods (o : Olp K) (L : List (Site K)) : Option Unit := do
  let rs ← loop o o.recs
  nbhAccesses rs (List.replicate L.length none)

/-- `executeParallelMerge` (OverlapCalculator.cpp:449-456): the cache of neighbours stays. -/
def merge (o : Olp K) (p : List (Rec K)) : Olp K := { o with recs := o.recs ++ p }

/-- `resetValue` (OverlapCalculator.cpp:415-422) with the radii of the structure. -/
def reset (radii : List K) : Olp K := ⟨[], radii, [], false⟩

/-! ### BVSCalculator and BondCalculator -/

/-- What BVSCalculator keeps: `mstructure_cache.valences` and `mvalue`. -/
structure Bvs (K : Type) where
  vobs : List K
  vsim : List K

/-- The loop of `bvdiff` over `n` sites from `i` (BVSCalculator.cpp:72-75). -/
def diffLoop (b : Bvs K) : Nat → Nat → Option (List K)
  | 0, _ => some []
  | n + 1, i => do
    let x ← rd b.vobs i
    let y ← rd b.vsim i
    let rest ← diffLoop b n (i + 1)
    return (|x| - |y|) :: rest

/-- `bvdiff` (BVSCalculator.cpp:65-77). -/
def bvdiff (b : Bvs K) (L : List (Site K)) : Option (List K) := diffLoop b L.length 0

/-- `bvmsdiff` (BVSCalculator.cpp:80-95). -/
def bvmsdiff (b : Bvs K) (L : List (Site K)) : Option K := do
  let bd ← bvdiff b L
  let ss := (List.zipWith (fun x (s : Site K) => s.mult * s.occ * x * x) bd L).sum
  return if totalOccupancy L > 0 then ss / totalOccupancy L else 0

/-- `types0` of BondCalculator (BondCalculator.cpp:156-159). -/
def bondTypes0 (recs : List (Rec K)) (L : List (Site K)) : Option (List String) := indicesToTypes L (recs.map (·.i))

/-- `types1` of BondCalculator (BondCalculator.cpp:162-165). -/
def bondTypes1 (recs : List (Rec K)) (L : List (Site K)) : Option (List String) := indicesToTypes L (recs.map (·.j))

end Verif.Queries
