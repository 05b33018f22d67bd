import Verif.Model.Ticker
import Mathlib.Logic.Function.Basic
import Mathlib.Algebra.Order.Ring.Int
/-
`EventTicker::click` (src/diffpy/EventTicker.cpp:40-49) called from several threads.  The process-wide `gtick` (EventTicker.cpp:102) is a plain
pair of `long`, so that the call is a load of the counter, a store of the next value and a copy of the counter into the ticker; steps of different
threads may come in any order, each sees all the earlier ones (the C++ standard promises less for such races).  Simplification: the first
component of the pair stays 0 and the counter does not overflow.
-/
namespace Verif.Threads

/-- Where a thread is: outside of `click`, after the load of `++gtick.second` (EventTicker.cpp:42) of a call on the ticker `k`, or after its store. -/
inductive Pc
  | idle
  | loaded (k : ℕ) (v : ℤ)
  | stored (k : ℕ)
deriving DecidableEq

/-- The counter `gtick.second` (EventTicker.cpp:102), the tickers (`mtick.second`, EventTicker.hpp:69) and the threads. -/
structure World where
  g : ℤ
  ts : ℕ → ℤ
  pc : ℕ → Pc

/-- Program start (EventTicker.cpp:35, 102). -/
def World.init : World := ⟨0, fun _ => 0, fun _ => .idle⟩

/-- A step of the thread `i`: the steps of `click` in their order, or `ts[k].updateFrom(ts[j])`. -/
inductive Ev
  | load (i k : ℕ)
  | store (i : ℕ)
  | copy (i : ℕ)
  | update (i k j : ℕ)

/-- One step; a thread that is elsewhere does nothing (EventTicker.cpp:40-55). -/
def step (w : World) : Ev → World
  | .load i k => match w.pc i with
    | .idle => { w with pc := Function.update w.pc i (.loaded k w.g) }
    | _ => w
  | .store i => match w.pc i with
    | .loaded k v => { w with g := v + 1, pc := Function.update w.pc i (.stored k) }
    | _ => w
  | .copy i => match w.pc i with
    | .stored k => { w with ts := Function.update w.ts k w.g, pc := Function.update w.pc i .idle }
    | _ => w
  | .update i k j => match w.pc i with
    | .idle => { w with ts := Function.update w.ts k (max (w.ts k) (w.ts j)) }
    | _ => w

/-- A schedule. -/
def run (w : World) (es : List Ev) : World := es.foldl step w

end Verif.Threads
