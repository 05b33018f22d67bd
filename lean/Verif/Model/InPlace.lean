import Verif.Model.History
/-
Structures as objects that are edited in place between calls.  Model/History passes structures by value; here the calculator and the
evaluator hold pointers (PairQuantity.hpp `mstructure`, PQEvaluator.hpp `mlast_structure`) into a memory of structure objects.
-/
namespace Verif.InPlace
open Verif.Eval Verif.Diff Verif.History

variable {C S B G : Type} [AddCommGroup G]

/-- The calculator with the memory of structure objects.  `owned a` are the objects that the program outside the calculator can
change; `st.last` is not used, the last structure is the object `lastp` (PQEvaluator.hpp:113). -/
structure Sys (C S G : Type) where
  st : St C S G
  heap : Nat → S
  owned : Nat → Bool
  /-- `mstructure` -/
  ptr : Nat
  /-- `mlast_structure` -/
  lastp : Option Nat
  /-- objects from here on are not allocated yet -/
  next : Nat

/-- The structures of a call, found at their addresses. -/
def mapOp (heap : Nat → S) : Op C Nat → Op C S
  | .eval a => .eval (heap a)
  | .evalFail a k => .evalFail (heap a) k
  | .setStructure a => .setStructure (heap a)
  | .configure f clicks => .configure f clicks
  | .setType t => .setType t
  | .setupParallel i n => .setupParallel i n

/-- How many elementary state changes of an OPTIMIZED evaluation there are up to and including the first `setStructure`: after the
removal of contributions in a fast update (PQEvaluator.cpp:183, :200-257), else at the start of the complete update (:99-100). -/
def fastPos (K : Calc C S B G) (st : St C S G) (stru : S) : Nat :=
  match fastChoice K st stru with
  | none => 3
  | some (s0, d) =>
    (removeTrace (K.gen st.cfg s0) K.fullSum (K.use st.cfg st.cur) (K.count s0) d.pop0 st.cpuindex st.ncpu).2.length + 3

/-- The same for `eval(stru)` with any evaluator (PQEvaluator.cpp:99-100, :183-257, see `History.evalProg`). -/
def struPos (K : Calc C S B G) (st : St C S G) (stru : S) : Nat :=
  if st.evtype = .optimized ∨ st.evtype = .check then fastPos K st stru else 2

/-- The new `mstructure` after a call (PairQuantity.cpp:71). -/
def newPtr (K : Calc C S B G) (st : St C S G) (heap : Nat → S) (ptr : Nat) : Op C Nat → Nat
  | .eval a => a
  | .evalFail a k => if struPos K st (heap a) ≤ k then a else ptr
  | .setStructure a => a
  | _ => ptr

/-- Actions of a program. -/
inductive Act (C S : Type)
  /-- a call on the calculator with structure objects as arguments -/
  | call (op : Op C Nat)
  /-- `eval()` with the structure object set before (PairQuantity.cpp:55-58) -/
  | again
  /-- changing a structure object in place -/
  | edit (a : Nat) (f : S → S)
  /-- making a new structure object -/
  | create (s : S)

/-- A call.  While it runs nothing edits the objects, so it reads their present content.  The clone that becomes `mlast_structure`
(PQEvaluator.cpp:296, :305) is a new object that the program outside has no access to (clones are deep,
AtomicStructureAdapter.cpp:101-104, NoMetaStructureAdapter.cpp:50-55, NoSymmetryStructureAdapter.cpp:52-58).  With `live` the calculator
reads the structure object through `mstructure` when it adds contributions (BVSCalculator.cpp:176-177) instead of caches filled in
`setStructure` (PDFCalculator.cpp:517, BaseDebyeSum.cpp:183-184).  Simplification: a new object for `mlast_structure` is made after every
call, with the same content if it did not change. -/
def callSys (K : Calc C S B G) (live : Bool) (y : Sys C S G) (op : Op C Nat) : Sys C S G :=
  let st0 := { y.st with last := y.lastp.map y.heap, cur := if live then y.heap y.ptr else y.st.cur }
  let st1 := step K st0 (mapOp y.heap op)
  { st := { st1 with last := none }
    heap := match st1.last with
      | some s => fun a => if a = y.next then s else y.heap a
      | none => y.heap
    owned := y.owned
    ptr := newPtr K st0 y.heap y.ptr op
    lastp := st1.last.map fun _ => y.next
    next := y.next + 1 }

/-- One action. -/
def act (K : Calc C S B G) (live : Bool) (y : Sys C S G) : Act C S → Sys C S G
  | .call op => callSys K live y op
  | .again => callSys K live y (.eval y.ptr)
  | .edit a f => if y.owned a then { y with heap := fun b => if b = a then f (y.heap a) else y.heap b } else y
  | .create s => { y with
      heap := fun b => if b = y.next then s else y.heap b,
      owned := fun b => b = y.next || y.owned b,
      next := y.next + 1 }

/-- State after a sequence of actions. -/
def runSys (K : Calc C S B G) (live : Bool) (y : Sys C S G) (as : List (Act C S)) : Sys C S G := as.foldl (act K live) y

/-- A new calculator with the empty structure as object 0 (PairQuantity.cpp:39-51), which cannot be changed. -/
def initSys (c : C) (e : S) (cpuindex ncpu : Int) : Sys C S G :=
  ⟨init c e cpuindex ncpu, fun _ => e, fun _ => false, 0, none, 1⟩

end Verif.InPlace
