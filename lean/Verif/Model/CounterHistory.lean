import Verif.Model.BVHistory
import Verif.Model.Wrappers
import Verif.Model.OverlapSum
/-
Model of a `PairCounter` (src/diffpy/srreal/PairCounter.{hpp,cpp}) over a history of calls: limits, masks, structures, evaluations, CPU assignments
and merges.  Numbers are reals.
-/
namespace Verif.CountHist
open Verif.BondGen Verif.Eval Verif.Diff Verif.KindDiff Verif.Geo
open Verif.Protocol (Out Err Merge)

/-- The object (PairQuantity.hpp:115-135): the limits, the masks, the structure, the value with the count of merges, the CPU of the evaluator. -/
structure Obj where
  rmin : ℝ
  rmax : ℝ
  mask : Mask.State
  stru : RStru
  merge : Merge ℝ
  cpuindex : Int
  ncpu : Int

/-- `PairQuantity::resetValue` (PairQuantity.cpp:344-352): the value keeps its length. -/
def resetValue (s : Obj) : Obj := { s with merge := Protocol.resetValue s.merge }

/-- `setStructure` (PairQuantity.cpp:69-75); `sord` and `tord` are the orders in which `updateMaskData` visits the mask containers. -/
def setStructure (s : Obj) (x : RStru) (sord : List (Int × Bool)) (tord : List (Mask.TKey × Bool)) : Obj :=
  resetValue { s with stru := x, mask := Mask.setStructure sord tord s.mask (x.atoms.map fun a => a.atomtype) }

/-- `mvalue.front() += summationscale / 2.0` (PairCounter.cpp:34-38) for all contributions. -/
noncomputable def addPairs {B : Type} (v : List ℝ) (tr : List (Contrib B)) : List ℝ :=
  match v with
  | [] => []
  | x :: xs => Wrappers.countLoop tr x :: xs

/-- `eval(stru)` with the BASIC evaluator (PairQuantity.cpp:61-66, PQEvaluator.cpp:96-128), `configureBondGenerator` of the base class
(PairQuantity.cpp:354-359); nothing of the bond is read (PairCounter.cpp:34-38).  `gen lo hi` is the bond generator of the structure with these limits. -/
noncomputable def evaluate (s : Obj) (x : RStru) (sord : List (Int × Bool)) (tord : List (Mask.TKey × Bool)) (gen : ℝ → ℝ → Gen Bond) : Obj :=
  let s1 := setStructure s x sord tord
  let cnt := s1.stru.atoms.length
  let tr := basicTrace (chopOuterRule cnt s1.ncpu) (mapGen (fun _ => ()) (gen s1.rmin s1.rmax)) false
    (fun i j => !(Mask.hasMask s1.mask && !Mask.getPairMask s1.mask i j)) cnt s1.cpuindex s1.ncpu
  { s1 with merge := { s1.merge with value := addPairs s1.merge.value tr, finished := s1.merge.finished + 1 } }

/-- The calls. -/
inductive Call
  /-- `setRmin` (PairQuantity.cpp:118-122). -/
  | setRmin (r : ℝ)
  /-- `setRmax` (PairQuantity.cpp:131-135). -/
  | setRmax (r : ℝ)
  /-- A mask call (PairQuantity.cpp:178-318). -/
  | mask (op : Mask.Op)
  | setStructure (x : RStru) (sord : List (Int × Bool)) (tord : List (Mask.TKey × Bool))
  | eval (x : RStru) (sord : List (Int × Bool)) (tord : List (Mask.TKey × Bool)) (gen : ℝ → ℝ → Gen Bond)
  /-- `setEvaluatorType` (PairQuantity.cpp:144-162). -/
  | setType (t : Int)
  /-- `setupParallelRun` (PairQuantity.cpp:178-181). -/
  | parallel (cpuindex ncpu : Int)
  /-- `mergeParallelData` (PairQuantity.cpp:96-107). -/
  | merge (p : List ℝ) (ncpu : Int)

/-- One call and the exception it throws, if any.  The counter does not define `stashPartialValue`, so every evaluator type but BASIC is
rejected (PairQuantity.cpp:144-162, :405-418). -/
noncomputable def step (s : Obj) : Call → Out Obj
  | .setRmin r => ⟨{ s with rmin := r }, none⟩
  | .setRmax r => ⟨{ s with rmax := r }, none⟩
  | .mask op => ⟨{ s with mask := Mask.step s.mask op }, none⟩
  | .setStructure x sord tord => ⟨setStructure s x sord tord, none⟩
  | .eval x sord tord gen => ⟨evaluate s x sord tord gen, none⟩
  | .setType t => if t = Protocol.tBasic then ⟨s, none⟩ else ⟨s, some .invalidArgument⟩
  | .parallel i n => if n < 1 then ⟨s, some .invalidArgument⟩ else ⟨{ s with cpuindex := i, ncpu := n }, none⟩
  | .merge p n => ⟨{ s with merge := (Protocol.mergeParallelData s.merge p n).st }, (Protocol.mergeParallelData s.merge p n).err⟩

/-- The object after a sequence of calls, exceptions being caught. -/
noncomputable def run (s : Obj) : List Call → Obj
  | [] => s
  | c :: cs => run (step s c).st cs

/-- A new counter (PairCounter.cpp:25-30, PairQuantity.cpp:39-51): limits 0 and 1000, one value. -/
noncomputable def new : Obj := ⟨0, 1000, Mask.init, ⟨.atomic, []⟩, ⟨[0], 0, 0⟩, 0, 1⟩

/-- `value()` (PairQuantity.cpp:90-93). -/
def Obj.value (s : Obj) : List ℝ := s.merge.value

/-- `int(this->value().front())` (PairCounter.hpp:46-52). -/
noncomputable def Obj.count (s : Obj) : Int := Wrappers.toInt (s.value.headD 0)

end Verif.CountHist
