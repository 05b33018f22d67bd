import Verif.Model.BVHistory
import Verif.Model.OverlapSum
import Verif.Model.Tables
/-!
Model of an `OverlapCalculator` object over a history of calls (OverlapCalculator.cpp, PairQuantity.cpp:39-185, :344-352, PQEvaluator.cpp:96-160).
A structure is given by its content at the time of the call.  The base version of `customPQConfig` does nothing (StructureAdapter.hpp:92).
-/
namespace Verif.OlpHist
open Verif.BondGen Verif.Eval Verif.Diff Verif.KindDiff Verif.Geo Verif.Overlap
open Verif.Protocol (Out Err)

/-- A table of radii: `standardLookup` and the custom radii (AtomRadiiTable.hpp:40-68, ConstantRadiiTable.hpp:28-48); lookups that throw, as a
class derived in Python may have, are not modelled. -/
structure RTable where
  std : List Char → ℝ
  custom : Tables.Radii ℝ

/-- `AtomRadiiTable::lookup` (AtomRadiiTable.cpp:38-44). -/
noncomputable def RTable.radius (t : RTable) (sym : String) : ℝ := Tables.lookup t.std t.custom sym.toList

/-- A call on a table. -/
inductive TOp
  /-- `setCustom`, `resetCustom`, `resetAll`, `fromString` (AtomRadiiTable.cpp:47-96). -/
  | radii (op : Tables.ROp ℝ)
  /-- `ConstantRadiiTable::setDefault` (ConstantRadiiTable.cpp:68-71). -/
  | setDefault (r : ℝ)

/-- The table after a call; `num` reads a number in `fromString`. -/
noncomputable def tstep (num : List Char → Option ℝ) (t : RTable) : TOp → RTable
  | .radii op => { t with custom := Tables.rstep num t.custom op }
  | .setDefault r => { t with std := fun _ => r }

/-- A new `ConstantRadiiTable` (ConstantRadiiTable.cpp:35-36). -/
def RTable.fresh : RTable := ⟨fun _ => 0, []⟩

/-- The object (OverlapCalculator.hpp:90-115, PairQuantity.hpp:115-135): the limits, the tables of radii that exist and the one the calculator points
to, the masks, the structure, the cached radii and largest separation, the value, the count of merges, the cache of neighbours, the CPU of the evaluator. -/
structure Obj where
  rmin : ℝ
  rmax : ℝ
  heap : ℕ → RTable
  tid : ℕ
  mask : Mask.State
  stru : RStru
  radii : List ℝ
  maxsep : ℝ
  mv : List ℝ
  merged : ℤ
  nbrs : Cache
  cpuindex : Int
  ncpu : Int

/-- What the queries ask of the structure with content `x`, with the cached radii (OverlapCalculator.cpp:141-378, StructureAdapter.hpp). -/
noncomputable def struOf (radii : List ℝ) (x : RStru) : Stru ℝ where
  cnt := x.atoms.length
  occ i := ((x.atoms[i]?).map fun a => (a.occupancy : ℝ)).getD 0
  mult i := BVHist.siteMult x i
  typ i := ((x.atoms[i]?).map fun a => a.atomtype).getD ""
  radius i := radii.getD i 0

/-- `*max_element` or zero (OverlapCalculator.cpp:533-536). -/
noncomputable def maxRadius : List ℝ → ℝ
  | [] => 0
  | r :: rs => rs.foldl max r

/-- `cacheStructureData` (OverlapCalculator.cpp:523-537). -/
noncomputable def cacheStructureData (s : Obj) : Obj :=
  let radii := s.stru.atoms.map fun a => (s.heap s.tid).radius a.atomtype
  { s with radii := radii, maxsep := 2 * maxRadius radii }

/-- `resetValue` (OverlapCalculator.cpp:415-422) with `PairQuantity::resetValue` (PairQuantity.cpp:344-352). -/
noncomputable def resetValue (s : Obj) : Obj :=
  { cacheStructureData { s with mv := [], nbrs := freshCache } with merged := 0 }

/-- `setStructure` (PairQuantity.cpp:69-75); `sord` and `tord` are the orders in which `updateMaskData` visits the mask containers. -/
noncomputable def setStructure (s : Obj) (x : RStru) (sord : List (Int × Bool)) (tord : List (Mask.TKey × Bool)) : Obj :=
  resetValue { s with stru := x, mask := Mask.setStructure sord tord s.mask (x.atoms.map fun a => a.atomtype) }

/-- `getRmaxUsed` (OverlapCalculator.cpp:406-411). -/
noncomputable def Obj.rmaxUsed (s : Obj) : ℝ := min s.rmax s.maxsep

/-- `eval(stru)` with the BASIC evaluator (PairQuantity.cpp:61-66, PQEvaluator.cpp:96-128), `configureBondGenerator` and `addPairContribution`
(OverlapCalculator.cpp:425-446), full sums (OverlapCalculator.cpp:63-65); `gen lo hi` is the bond generator of the structure with these limits. -/
noncomputable def evaluate (s : Obj) (x : RStru) (sord : List (Int × Bool)) (tord : List (Mask.TKey × Bool)) (gen : ℝ → ℝ → Gen Bond) : Obj :=
  let s1 := setStructure s x sord tord
  let cnt := s1.stru.atoms.length
  let tr := basicTrace (chopOuterRule cnt s1.ncpu) (mapGen ovBond (gen s1.rmin s1.rmaxUsed)) true
    (fun i j => !(Mask.hasMask s1.mask && !Mask.getPairMask s1.mask i j)) cnt s1.cpuindex s1.ncpu
  { s1 with mv := tr.foldl addPair s1.mv }

/-- The calls. -/
inductive Call
  /-- `setRmin` (PairQuantity.cpp:118-122). -/
  | setRmin (r : ℝ)
  /-- `setRmax` (PairQuantity.cpp:131-135). -/
  | setRmax (r : ℝ)
  /-- `setAtomRadiiTable` (OverlapCalculator.cpp:381-385), a null pointer or a table. -/
  | setTable (t : Option ℕ)
  /-- `setAtomRadiiTableByType` (OverlapCalculator.cpp:388-391): an unknown type, or `"constant"` with the address of the new table. -/
  | setTableByType (t : Option ℕ)
  /-- A call on one of the tables, in use or not. -/
  | editTable (t : ℕ) (op : TOp)
  /-- A mask call (PairQuantity.cpp:178-318). -/
  | mask (op : Mask.Op)
  | setStructure (x : RStru) (sord : List (Int × Bool)) (tord : List (Mask.TKey × Bool))
  | eval (x : RStru) (sord : List (Int × Bool)) (tord : List (Mask.TKey × Bool)) (gen : ℝ → ℝ → Gen Bond)
  /-- `setEvaluatorType` (PairQuantity.cpp:144-162). -/
  | setType (t : Int)
  /-- `setupParallelRun` (PairQuantity.cpp:178-181). -/
  | parallel (cpuindex ncpu : Int)
  /-- `mergeParallelData` (PairQuantity.cpp:96-107). -/
  | merge (p : List ℝ) (ncpu : Int)
  /-- A query that looks for the neighbours of a site: `getNeighborSites`, `coordinationByTypes`, `flipDiffTotal`, `flipDiffMean`. -/
  | query

/-- One call and the exception it throws, if any; `num` reads the numbers of `fromString`.  The calculator does not define `stashPartialValue`, so every
evaluator type but BASIC is rejected (PairQuantity.cpp:144-162, :405-418).  A merge appends the data (OverlapCalculator.cpp:449-457); `finishValue` does
nothing (PairQuantity.hpp). -/
noncomputable def step (num : List Char → Option ℝ) (s : Obj) : Call → Out Obj
  | .setRmin r => ⟨{ s with rmin := r }, none⟩
  | .setRmax r => ⟨{ s with rmax := r }, none⟩
  | .setTable none => ⟨s, some .invalidArgument⟩
  | .setTable (some t) => ⟨{ s with tid := t }, none⟩
  | .setTableByType none => ⟨s, some .invalidArgument⟩
  | .setTableByType (some t) => ⟨{ s with heap := Function.update s.heap t RTable.fresh, tid := t }, none⟩
  | .editTable t op => ⟨{ s with heap := Function.update s.heap t (tstep num (s.heap t) op) }, none⟩
  | .mask op => ⟨{ s with mask := Mask.step s.mask op }, none⟩
  | .setStructure x sord tord => ⟨setStructure s x sord tord, none⟩
  | .eval x sord tord gen => ⟨evaluate s x sord tord gen, none⟩
  | .setType t => if t = Protocol.tBasic then ⟨s, none⟩ else ⟨s, some .invalidArgument⟩
  | .parallel i n => if n < 1 then ⟨s, some .invalidArgument⟩ else ⟨{ s with cpuindex := i, ncpu := n }, none⟩
  | .merge p n => if s.merged ≥ n then ⟨s, some .runtimeError⟩ else ⟨{ s with mv := Overlap.merge s.mv p, merged := s.merged + 1 }, none⟩
  | .query => ⟨{ s with nbrs := fillCache s.nbrs s.mv }, none⟩

/-- The object after a sequence of calls, exceptions being caught. -/
noncomputable def run (num : List Char → Option ℝ) (s : Obj) : List Call → Obj
  | [] => s
  | c :: cs => run num (step num s c).st cs

/-- A new calculator (OverlapCalculator.cpp:63-76, PairQuantity.cpp:39-51): the table is a new one, `heap 0`. -/
noncomputable def new (heap : ℕ → RTable) : Obj :=
  cacheStructureData ⟨0, 100, Function.update heap 0 RTable.fresh, 0, Mask.init, ⟨.atomic, []⟩, [], 0, [], 0, freshCache, 0, 1⟩

/-! ### The queries, `x` being the content of the structure now -/

/-- `overlaps`, `distances`, `directions`, `sites0`, `sites1` (OverlapCalculator.cpp:80-126). -/
noncomputable def Obj.overlaps (s : Obj) (x : RStru) : List ℝ := Overlap.overlaps (struOf s.radii x) s.mv
noncomputable def Obj.distances (s : Obj) (x : RStru) : List ℝ := Overlap.distances (struOf s.radii x) s.mv
noncomputable def Obj.directions (s : Obj) (x : RStru) : List (ℝ × ℝ × ℝ) := Overlap.directions (struOf s.radii x) s.mv
noncomputable def Obj.sites0 (s : Obj) (x : RStru) : List ℕ := Overlap.sites0 (struOf s.radii x) s.mv
noncomputable def Obj.sites1 (s : Obj) (x : RStru) : List ℕ := Overlap.sites1 (struOf s.radii x) s.mv
/-- `siteSquareOverlaps`, `totalSquareOverlap`, `meanSquareOverlap` (OverlapCalculator.cpp:141-181). -/
noncomputable def Obj.siteSquareOverlaps (s : Obj) (x : RStru) : List ℝ := Overlap.siteSquareOverlaps (struOf s.radii x) s.mv
noncomputable def Obj.totalSquareOverlap (s : Obj) (x : RStru) : ℝ := Overlap.totalSquareOverlap (struOf s.radii x) s.mv
noncomputable def Obj.meanSquareOverlap (s : Obj) (x : RStru) : ℝ := Overlap.meanSquareOverlap (struOf s.radii x) s.mv
/-- `flipDiffTotal` (OverlapCalculator.cpp:184-217). -/
noncomputable def Obj.flipDiffTotal (s : Obj) (x : RStru) (order : List ℕ → List ℕ) (i j : ℤ) : Option ℝ :=
  Overlap.flipDiffTotal (struOf s.radii x) s.nbrs s.mv order i j
/-- `gradients` (OverlapCalculator.cpp:228-246), one component. -/
noncomputable def Obj.gradients (s : Obj) (x : RStru) (off : ℕ) : List ℝ := Overlap.gradients (struOf s.radii x) s.mv off
/-- `getNeighborSites`, `coordinations`, `coordinationByTypes` (OverlapCalculator.cpp:249-310). -/
noncomputable def Obj.getNeighborSites (s : Obj) (x : RStru) (i : ℕ) : List ℕ := Overlap.getNeighborSites (struOf s.radii x) s.nbrs s.mv i
noncomputable def Obj.coordinations (s : Obj) (x : RStru) : List ℝ := Overlap.coordinations (struOf s.radii x) s.mv
noncomputable def Obj.coordinationByTypes (s : Obj) (x : RStru) (i : ℕ) : List (String × ℝ) := Overlap.coordinationByTypes (struOf s.radii x) s.nbrs s.mv i
/-- `neighborhoods` (OverlapCalculator.cpp:313-378): the pair masks are those of the time of the query. -/
noncomputable def Obj.neighborhoods (s : Obj) (x : RStru) : List (List ℕ) :=
  Overlap.neighborhoods (struOf s.radii x) s.mv fun i j => Mask.getPairMask s.mask i j

end Verif.OlpHist
