import Verif.Model.History
/-
Model of several calculator objects and of copying them.  PairQuantity has no user-written copy
constructor or assignment, so a copy is memberwise: values, masks and tickers are copied, the
evaluator (`PQEvaluatorPtr mevaluator`, PairQuantity.hpp:115, a shared pointer) is shared.
-/
namespace Verif.Copies
open Verif.Eval Verif.Diff Verif.History

/-- Members that belong to one calculator object (PairQuantity.hpp:111-121) and the address of its
evaluator (`mevaluator`, :115).  Simplification: settings kept behind further shared pointers (peak
width model, tables) are in the model of C63. -/
structure Priv (C S G : Type) where
  pqTick : Nat
  cur : S
  cfg : C
  value : G
  stash : G
  saved : G
  ev : Nat

/-- Members of an evaluator object (PQEvaluator.hpp:79-84, :117). -/
structure Ev (S : Type) where
  valTick : Nat
  last : Option S
  evtype : EvType
  used : EvType
  cpuindex : Int
  ncpu : Int

/-- All calculators and evaluators, with the click counter of the process. -/
structure Sys (C S G : Type) where
  clock : Nat
  calcs : Nat → Priv C S G
  evs : Nat → Ev S
  /-- next free evaluator address -/
  nevs : Nat

variable {C S B G : Type} [AddCommGroup G]

/-- What the members of calculator `a` see: `this` and `*mevaluator`. -/
def view (s : Sys C S G) (a : Nat) : St C S G :=
  let p := s.calcs a
  let e := s.evs p.ev
  ⟨s.clock, p.pqTick, e.valTick, e.last, p.cur, p.cfg, p.value, p.stash, p.saved, e.evtype, e.used, e.cpuindex, e.ncpu⟩

/-- Storing the members of `a` and of evaluator `i`, which `a` holds. -/
def store (s : Sys C S G) (a i n : Nat) (st : St C S G) : Sys C S G :=
  ⟨st.clock,
    fun b => if b = a then ⟨st.pqTick, st.cur, st.cfg, st.value, st.stash, st.saved, i⟩ else s.calcs b,
    fun j => if j = i then ⟨st.valTick, st.last, st.evtype, st.used, st.cpuindex, st.ncpu⟩ else s.evs j,
    n⟩

/-- Calls: a member function of calculator `a`, or a copy of one calculator into another variable. -/
inductive SOp (C S : Type)
  | on (a : Nat) (op : Op C S)
  | copy (src dst : Nat)

/-- Member functions write to `*this` and `*mevaluator`; `setEvaluatorType` with another type makes a
new evaluator (PairQuantity.cpp:144-162); copying is memberwise (implicit copy of PairQuantity). -/
def sstep (K : Calc C S B G) (s : Sys C S G) : SOp C S → Sys C S G
  | .on a (.setType t) =>
    let st := view s a
    let st' := setTypeSt K t st
    if st'.evtype = st.evtype then s else store s a s.nevs (s.nevs + 1) st'
  | .on a op => store s a (s.calcs a).ev s.nevs (step K (view s a) op)
  | .copy src dst => { s with calcs := fun b => if b = dst then s.calcs src else s.calcs b }

/-- A history of calls. -/
def srun (K : Calc C S B G) (s : Sys C S G) (ops : List (SOp C S)) : Sys C S G := ops.foldl (sstep K) s

/-- New calculators, each with its own evaluator (PairQuantity.cpp:39-51). -/
def fresh (c : C) (e : S) (n : Nat) : Sys C S G :=
  ⟨0, fun a => ⟨0, e, c, 0, 0, 0, if a < n then a else n⟩, fun _ => ⟨0, none, .basic, .none, 0, 1⟩, n + 1⟩

end Verif.Copies
