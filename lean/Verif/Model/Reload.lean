import Verif.Model.History
import Verif.Model.Ticker
/-
Saving a calculator to an archive and loading it, perhaps in another process
(PairQuantity.hpp:131-148, PQEvaluator.hpp:92-97, :119-126, EventTicker.hpp:68-84).
-/
namespace Verif.Reload
open Verif.History Verif.Diff

/-- What is written to the archive: `PairQuantity::serialize` (PairQuantity.hpp:135-148) with the evaluator
(PQEvaluator.hpp:94-97, :121-126) and the clock `ga` that every ticker writes (EventTicker.hpp:69-72).  The settings of the
derived classes are in `cfg` and are all archived (PDFCalculator.hpp:183-204, DebyePDFCalculator.hpp:137-152,
BaseDebyeSum.hpp:99-112, BondCalculator.hpp:91-98, BVSCalculator.hpp:87-94, OverlapCalculator.hpp:122-130).  Not archived:
`mtypeused` and the stashed values. -/
structure Archive (C S G : Type) where
  value : G
  cur : S
  cfg : C
  evtype : EvType
  cpuindex : Int
  ncpu : Int
  valTick : Nat
  last : Option S
  pqTick : Nat
  ga : Nat

variable {C S B G : Type} [AddCommGroup G]

/-- `serialization_tostring(pq)` (serialization.ipp:33-39).  The archive class of CHECK evaluators is not exported
(PQEvaluator.hpp:160-162, PQEvaluator.cpp:468-473), saving through the base pointer throws. -/
def save (st : St C S G) : Option (Archive C S G) :=
  if st.evtype = .check then none
  else some ⟨st.value, st.cur, st.cfg, st.evtype, st.cpuindex, st.ncpu, st.valTick, st.last, st.pqTick, st.clock⟩

/-- `EventTicker::load` (EventTicker.hpp:75-84) for process clock `g`, with the constant `ga` added to all ticker values so that
they are natural numbers (`loadTick_spec` relates it to the model of C02). -/
def loadTick (g m ga : Nat) : Nat := if ga > g then m + g else m + ga

/-- `serialization_fromstring(pq, s)` (serialization.ipp:42-48): the value ticker is loaded at process clock `g1`, the ticker
of the calculator at `g2`; in between, constructors of loaded components may click (GaussianProfile.cpp:37-38). -/
def reload (ar : Archive C S G) (g1 g2 : Nat) : St C S G :=
  ⟨g2 + ar.ga, loadTick g2 ar.pqTick ar.ga, loadTick g1 ar.valTick ar.ga, ar.last, ar.cur, ar.cfg, ar.value, 0, 0, ar.evtype,
    .none, ar.cpuindex, ar.ncpu⟩

end Verif.Reload
