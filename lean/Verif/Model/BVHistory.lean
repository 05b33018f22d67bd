import Verif.Model.BVSum
import Verif.Model.Mask
import Verif.Model.Protocol
import Verif.Model.Setters
import Verif.Model.StruGeom
/-!
Model of a `BVSCalculator` object over a history of calls (BVSCalculator.cpp, PairQuantity.cpp:39-185, :344-375, PQEvaluator.cpp:96-160).
A structure is given by its content at the time of the call.  The base version of `customPQConfig` does nothing (StructureAdapter.hpp:92).
-/
namespace Verif.BVHist
open Verif.BV hiding Op
open Verif.BondGen Verif.Eval Verif.Diff Verif.KindDiff Verif.Geo
open Verif.Protocol (Out Err Merge)

/-- `siteMultiplicity(i)` (StructureAdapter.cpp:61-64, CrystalStructureAdapter.cpp:70-75). -/
noncomputable def siteMult (x : RStru) (i : ℕ) : ℕ :=
  match x.kind with
  | .atomic => 1
  | .periodic _ => 1
  | .crystal L o => (crysOf x.atoms L o).siteMultiplicity i

/-- The queries of a site: `siteAtomType`, `siteOccupancy` (AtomicStructureAdapter.cpp:121-139) and `siteMultiplicity`; of no site beyond
the last one is anything asked. -/
noncomputable def siteAt (x : RStru) (i : ℕ) : Site :=
  ((x.atoms[i]?).map fun a => (⟨a.atomtype.toList, (a.occupancy : ℝ), siteMult x i⟩ : Site)).getD ⟨[], 0, 0⟩

/-- The object (BVSCalculator.hpp:75-85, PairQuantity.hpp:115-135): the limits, the precision, the parameter tables that exist and the one the
calculator points to, the masks, the structure, the cached symbols and valences, the value with the count of merges, the CPU of the evaluator. -/
structure Obj where
  rmin : ℝ
  rmax : ℝ
  eps : ℝ
  heap : ℕ → Table ℝ
  tid : ℕ
  mask : Mask.State
  stru : RStru
  cache : List (Str × Int)
  merge : Merge ℝ
  cpuindex : Int
  ncpu : Int

/-- What does not change: the standard parameters (BVParametersTable.cpp:187-205), and the order in which the hash set `allsymvals`
(BVSCalculator.cpp:207-218) made from the cached pairs is visited. -/
structure Env where
  std : SetBV ℝ
  order : List (Str × Int) → List (Str × Int)

/-- The table in use, `getBVParamTable()` (BVSCalculator.cpp:112-121). -/
def Obj.table (s : Obj) : Table ℝ := s.heap s.tid

/-- `cacheStructureData` (BVSCalculator.cpp:187-201). -/
def cacheStructureData (t : Table ℝ) (x : RStru) : List (Str × Int) :=
  x.atoms.map fun a => (AtomUtils.atomBareSymbol a.atomtype.toList, getAtomValence t a.atomtype.toList)

/-- `resetValue` (BVSCalculator.cpp:148-154) with `resizeValue` and `PairQuantity::resetValue` (PairQuantity.cpp:344-352). -/
def resetValue (s : Obj) : Obj :=
  { s with cache := cacheStructureData s.table s.stru
           merge := { s.merge with value := s.stru.atoms.map fun _ => 0, count := 0 } }

/-- `setStructure` (PairQuantity.cpp:69-75); `sord` and `tord` are the orders in which `updateMaskData` visits the mask containers. -/
def setStructure (s : Obj) (x : RStru) (sord : List (Int × Bool)) (tord : List (Mask.TKey × Bool)) : Obj :=
  resetValue { s with stru := x, mask := Mask.setStructure sord tord s.mask (x.atoms.map fun a => a.atomtype) }

/-- `getRmaxUsed` (BVSCalculator.cpp:137-142, :204-238) for a structure that now has `cnt` sites; nothing when it reads past the end of the cache. -/
noncomputable def getRmaxUsed (e : Env) (s : Obj) (cnt : ℕ) : Option ℝ :=
  if cnt ≤ s.cache.length then some (rmaxUsed e.std s.table (e.order (s.cache.take cnt)) s.rmax s.eps) else none

/-- `eval(stru)` with the BASIC evaluator (PairQuantity.cpp:61-66, PQEvaluator.cpp:96-128) and `addPairContribution` (BVSCalculator.cpp:163-182);
`gen lo hi` is the bond generator of the structure with these limits.  `finishValue` does nothing (PairQuantity.hpp). -/
noncomputable def evaluate (e : Env) (s : Obj) (x : RStru) (sord : List (Int × Bool)) (tord : List (Mask.TKey × Bool)) (gen : ℝ → ℝ → Gen Bond) : Obj :=
  let s1 := setStructure s x sord tord
  let cnt := s1.stru.atoms.length
  let tr := basicTrace (chopOuterRule cnt s1.ncpu) (distGen (gen 0 ((getRmaxUsed e s1 cnt).getD 0))) false
    (fun i j => !(Mask.hasMask s1.mask && !Mask.getPairMask s1.mask i j)) cnt s1.cpuindex s1.ncpu
  let val := evalBVS e.std s1.table (siteAt s1.stru) tr
  { s1 with merge := { s1.merge with value := (List.range cnt).map val, finished := s1.merge.finished + 1 } }

/-- The calls. -/
inductive Call
  /-- `setRmin` (PairQuantity.cpp:118-122). -/
  | setRmin (r : ℝ)
  /-- `setRmax` (PairQuantity.cpp:131-135). -/
  | setRmax (r : ℝ)
  /-- `setValencePrecision` (BVSCalculator.cpp:124-128). -/
  | setPrecision (r : ℝ)
  /-- `setBVParamTable` (BVSCalculator.cpp:105-109), a null pointer or a table. -/
  | setTable (t : Option ℕ)
  /-- A call on one of the tables, in use or not (BVParametersTable.cpp). -/
  | editTable (t : ℕ) (op : BV.Op ℝ)
  /-- A mask call (PairQuantity.cpp:178-318). -/
  | mask (op : Mask.Op)
  | setStructure (x : RStru) (sord : List (Int × Bool)) (tord : List (Mask.TKey × Bool))
  | eval (x : RStru) (sord : List (Int × Bool)) (tord : List (Mask.TKey × Bool)) (gen : ℝ → ℝ → Gen Bond)
  /-- `setEvaluatorType` (PairQuantity.cpp:144-162). -/
  | setType (t : Int)
  /-- `setupParallelRun` (PairQuantity.cpp:178-181). -/
  | parallel (cpuindex ncpu : Int)
  /-- `mergeParallelData` (PairQuantity.cpp:96-107). -/
  | merge (p : List ℝ) (ncpu : Int)

/-- One call and the exception it throws, if any.  The calculator does not define `stashPartialValue`, so every evaluator type but BASIC is
rejected (PairQuantity.cpp:144-162, :405-418). -/
noncomputable def step (e : Env) (s : Obj) : Call → Out Obj
  | .setRmin r => ⟨{ s with rmin := r }, none⟩
  | .setRmax r => ⟨{ s with rmax := r }, none⟩
  | .setPrecision r => if Setters.throwsNotPositive r then ⟨s, some .invalidArgument⟩ else ⟨{ s with eps := r }, none⟩
  | .setTable none => ⟨s, some .invalidArgument⟩
  | .setTable (some t) => ⟨{ s with tid := t }, none⟩
  | .editTable t op => ⟨{ s with heap := Function.update s.heap t (tstep (s.heap t) op) }, none⟩
  | .mask op => ⟨{ s with mask := Mask.step s.mask op }, none⟩
  | .setStructure x sord tord => ⟨setStructure s x sord tord, none⟩
  | .eval x sord tord gen => ⟨evaluate e s x sord tord gen, none⟩
  | .setType t => if t = Protocol.tBasic then ⟨s, none⟩ else ⟨s, some .invalidArgument⟩
  | .parallel i n => if n < 1 then ⟨s, some .invalidArgument⟩ else ⟨{ s with cpuindex := i, ncpu := n }, none⟩
  | .merge p n => ⟨{ s with merge := (Protocol.mergeParallelData s.merge p n).st }, (Protocol.mergeParallelData s.merge p n).err⟩

/-- The object after a sequence of calls, exceptions being caught. -/
noncomputable def run (e : Env) (s : Obj) : List Call → Obj
  | [] => s
  | c :: cs => run e (step e s c).st cs

/-- A new calculator (BVSCalculator.cpp:35-52, PairQuantity.cpp:39-51): the table is a new one without custom data, `heap 0`; `empty` is the
structure of `emptyStructureAdapter()`. -/
noncomputable def new (heap : ℕ → Table ℝ) : Obj :=
  ⟨0, 100, 1 / 10 ^ 5, Function.update heap 0 ⟨[], []⟩, 0, Mask.init, ⟨.atomic, []⟩, [], ⟨[], 0, 0⟩, 0, 1⟩

/-- `value()` (PairQuantity.cpp:90-93). -/
def Obj.value (s : Obj) : List ℝ := s.merge.value

/-- `valences()` (BVSCalculator.cpp:58-63). -/
def Obj.valences (s : Obj) : List Int := s.cache.map Prod.snd

/-- `bvdiff()` (BVSCalculator.cpp:66-78), the structure now having `cnt` sites; nothing when it reads past the end of an array. -/
noncomputable def Obj.bvdiff (s : Obj) (cnt : ℕ) : Option (List ℝ) :=
  if cnt ≤ s.cache.length ∧ cnt ≤ s.value.length then
    some ((List.range cnt).map fun i => |((s.valences.getD i 0 : ℤ) : ℝ)| - |s.value.getD i 0|)
  else none

/-- `bvmsdiff()` (BVSCalculator.cpp:81-95), `x` being the content of the structure now. -/
noncomputable def Obj.bvmsdiff (s : Obj) (x : RStru) : Option ℝ :=
  (s.bvdiff x.atoms.length).map fun bd =>
    let sos := (List.range x.atoms.length).foldl (fun a i => a + (siteAt x i).mult * (siteAt x i).occ * bd.getD i 0 * bd.getD i 0) 0
    if totalOccupancy (siteAt x) x.atoms.length > 0 then sos / totalOccupancy (siteAt x) x.atoms.length else 0

/-- `bvrmsdiff()` (BVSCalculator.cpp:98-102). -/
noncomputable def Obj.bvrmsdiff (s : Obj) (x : RStru) : Option ℝ := (s.bvmsdiff x).map Real.sqrt

end Verif.BVHist
