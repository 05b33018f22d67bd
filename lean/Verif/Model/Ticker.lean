/-
Model of `EventTicker` (src/diffpy/EventTicker.cpp, src/diffpy/EventTicker.hpp).
-/
namespace Verif.Ticker

/-- `EventTicker::value_type` is `std::pair<long,long>` (EventTicker.hpp:40). -/
abbrev Tick := Int × Int

/-- `std::pair::operator<`, used by `EventTicker::operator<` (EventTicker.cpp:64-67). -/
def lt (a b : Tick) : Bool := a.1 < b.1 || (!(b.1 < a.1) && a.2 < b.2)

/-- `EventTicker::operator>` (EventTicker.cpp:76-79). -/
def gt (a b : Tick) : Bool := lt b a

/-- `EventTicker::operator<=` (EventTicker.cpp:70-73), `!(b < a)` as in `std::pair`. -/
def le (a b : Tick) : Bool := !(lt b a)

/-- `EventTicker::operator>=` (EventTicker.cpp:82-85). -/
def ge (a b : Tick) : Bool := !(lt a b)

/-- `EventTicker::operator==` (EventTicker.cpp:88-91), `std::pair::operator==`. -/
def eq (a b : Tick) : Bool := a.1 == b.1 && a.2 == b.2

/-- `EventTicker::operator!=` (EventTicker.cpp:94-97), `!(a == b)` as in `std::pair`. -/
def ne (a b : Tick) : Bool := !(eq a b)

/-- Largest value of a 64-bit `long`. -/
def longMax : Int := 9223372036854775807

/-- Smallest value of a 64-bit `long`. -/
def longMin : Int := -9223372036854775808

/-- How the compiler treats signed overflow: `trap` makes it a distinct failed outcome
(standard C++: undefined behaviour), `wrap` is two's complement wrap-around (`-fwrapv`). -/
inductive Overflow | trap | wrap

/-- The increment `++x` of a `long` (EventTicker.cpp:42 and :45). -/
def incr (o : Overflow) (x : Int) : Option Int :=
  if x < longMax then some (x + 1)
  else match o with
    | .trap => none
    | .wrap => some longMin

/-- Advance of the global `gtick` in `EventTicker::click` (EventTicker.cpp:42-47). -/
def advance (o : Overflow) (g : Tick) : Option Tick := do
  let s ← incr o g.2
  if 0 ≥ s then
    let f ← incr o g.1
    return (f, 0)
  else return (g.1, s)

/-- `EventTicker::updateFrom` (EventTicker.cpp:52-55). -/
def updateFrom (self other : Tick) : Tick := if gt other self then other else self

/-- `EventTicker::load` (EventTicker.hpp:75-84): `m` and `ga` are the archived ticker and
the archived global clock, `g` the current global clock.  Simplification: the `long`
subtraction and addition in line 82 are exact integers. -/
def load (g m ga : Tick) : Tick :=
  if gt ga g then
    if ga.1 ≠ g.1 then (0, 0)
    else (m.1, m.2 + (g.2 - ga.2))
  else m

/-- The process: the static `gtick` (EventTicker.cpp:102) and all living tickers. -/
structure World where
  g : Tick
  ts : List Tick
deriving Repr, DecidableEq

/-- Program start (EventTicker.cpp:102). -/
def World.init : World := ⟨(0, 0), []⟩

/-- Calls on tickers; tickers are named by their position in `ts`. -/
inductive Op
  /-- default constructor (EventTicker.cpp:35) -/
  | new
  /-- `ts[k].click()` (EventTicker.cpp:40-49) -/
  | click (k : Nat)
  /-- `ts[k].updateFrom(ts[j])` (EventTicker.cpp:52-55) -/
  | update (k j : Nat)
  /-- `ts[k] = ts[j]`, the implicit copy assignment -/
  | copy (k j : Nat)
  /-- `ar >> ts[k]` where the archive holds ticker `m` and clock `ga` (EventTicker.hpp:75-84) -/
  | load (k : Nat) (m ga : Tick)

/-- One call; `none` is undefined behaviour (signed overflow, under `Overflow.trap`).
A reference to a ticker that does not exist is ignored. -/
def step (o : Overflow) (w : World) : Op → Option World
  | .new => some ⟨w.g, w.ts ++ [(0, 0)]⟩
  | .click k => do
      let g' ← advance o w.g
      return ⟨g', w.ts.set k g'⟩
  | .update k j =>
      match w.ts[k]?, w.ts[j]? with
      | some a, some b => some ⟨w.g, w.ts.set k (updateFrom a b)⟩
      | _, _ => some w
  | .copy k j =>
      match w.ts[j]? with
      | some b => some ⟨w.g, w.ts.set k b⟩
      | none => some w
  | .load k m ga => some ⟨w.g, w.ts.set k (load w.g m ga)⟩

/-- A history of calls. -/
def run (o : Overflow) : World → List Op → Option World
  | w, [] => some w
  | w, op :: ops => do run o (← step o w op) ops

end Verif.Ticker
