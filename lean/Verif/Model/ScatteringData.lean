import Verif.Model.LineReader
import Verif.Model.MathUtils
import Mathlib.Analysis.SpecialFunctions.Exp
import Mathlib.Analysis.SpecialFunctions.Trigonometric.Basic
/-
Scattering factors for X-rays and electrons and scattering lengths for neutrons
(src/diffpy/srreal/scatteringfactordata.cpp:42-219, :266-427), with the standard lookups of SFTXray, SFTElectron, SFTNeutron and
SFTElectronNumber.  Files are read with the `LineReader` model; the formatted input of numbers is a parameter.
-/
namespace Verif.ScatData
open Verif.LineReader Verif.AtomUtils Verif.AssocMap

/-! ### Waasmaier-Kirfel formulas -/

/-- `WaasKirfFormula` without its symbol (scatteringfactordata.cpp:47-101). -/
structure WK (N : Type) where
  a : List N
  b : List N
  c : N

/-- The assignments at scatteringfactordata.cpp:168-170. -/
def WK.fill {N : Type} [Zero N] (v : List N) : WK N := ⟨v.take 5, (v.drop 6).take 5, v.getD 5 0⟩

/-- The tests at scatteringfactordata.cpp:144, :154. -/
def marked (m : String) (r : Reader) : Bool := r.iscomment && (r.words.headD []).take 2 == m.toList

/-- The loading loop (scatteringfactordata.cpp:142-184) over the lines; `sym` is `wk.symbol`.  The result is the set when the loop
ends and whether it ended without an exception.  At the end of the file the inner read leaves a line that is empty or the `#L` line
itself, either of which makes the code throw. -/
def loadWK {N : Type} [Zero N] (parse : Str → Option (List N)) : List Reader → Str → List (Str × WK N) → List (Str × WK N) × Bool
  | [], _, t => (t, true)
  | [r], sym, t =>
    if marked "#S" r then
      if r.wcount < 3 then (t, false) else loadWK parse [] (r.words.getD 2 []) t
    else if marked "#L" r then (t, false)
    else loadWK parse [] sym t
  | r :: q :: rs, sym, t =>
    if marked "#S" r then
      if r.wcount < 3 then (t, false) else loadWK parse (q :: rs) (r.words.getD 2 []) t
    else if marked "#L" r then
      if sym.isEmpty then (t, false)
      else if q.wcount ≠ 11 then (t, false)
      else match parse q.line with
        | none => (t, false)
        | some v => if (find t sym).isSome then (t, false) else loadWK parse rs [] (put t sym (WK.fill v))
    else loadWK parse (q :: rs) sym t

/-- `getWKFormulasSet` (scatteringfactordata.cpp:130-186) with the static pointer as its state: new state and result, `none` for an
exception. -/
def getWK {N : Type} [Zero N] (parse : Str → Option (List N)) (text : Str) (st : Option (List (Str × WK N))) :
    Option (List (Str × WK N)) × Option (List (Str × WK N)) :=
  match st with
  | some t => (some t, some t)
  | none =>
    let r := loadWK parse (readAll (openStream text) new) [] []
    (some r.1, if r.2 then some r.1 else none)

/-- `findWKFormula` (scatteringfactordata.cpp:189-214); `none` is the exception. -/
def findWK {N : Type} (t : List (Str × WK N)) (smbl : Str) : Option (WK N) :=
  match find t smbl with
  | some w => some w
  | none =>
    let v := atomValence smbl
    if v = 0 then find t (atomBareSymbol smbl)
    else if v.natAbs = 1 then find t (atomBareSymbol smbl ++ (if v > 0 then "1+".toList else "1-".toList))
    else none

/-- `xrayatstol` (scatteringfactordata.cpp:68-76). -/
noncomputable def WK.xrayatstol (w : WK ℝ) (stol : ℝ) : ℝ :=
  (List.range 5).foldl (fun rv i => rv + w.a.getD i 0 * Real.exp (-w.b.getD i 0 * stol * stol)) w.c

/-- C `round`. -/
noncomputable def cRound (x : ℝ) : ℤ := if 0 ≤ x then ⌊x + 1 / 2⌋ else ⌈x - 1 / 2⌉

/-- `Z` (scatteringfactordata.cpp:78-83). -/
noncomputable def WK.Z (w : WK ℝ) : ℝ := cRound ((List.range 5).foldl (fun rv i => rv + w.a.getD i 0) w.c)

open Classical in
/-- `electronatstol` (scatteringfactordata.cpp:85-93); `big` is `DOUBLE_MAX`, `eps` the square root of the machine epsilon. -/
noncomputable def WK.electronatstol (w : WK ℝ) (big eps stol : ℝ) : ℝ :=
  if MathUtils.eps_eq stol 0 eps then big
  else 23934 / 10 ^ 6 * (w.Z - w.xrayatstol stol) / (stol * stol)

/-- `fxrayatstol` (scatteringfactordata.cpp:365-369). -/
noncomputable def fxrayatstol (t : List (Str × WK ℝ)) (smbl : Str) (stol : ℝ) : Option ℝ := (findWK t smbl).map fun w => w.xrayatstol stol

/-- `fxrayatq` (scatteringfactordata.cpp:357-361), `SFTXray::standardLookup` (SFTXray.cpp:63-66). -/
noncomputable def fxrayatq (t : List (Str × WK ℝ)) (smbl : Str) (q : ℝ) : Option ℝ := fxrayatstol t smbl (q / (4 * Real.pi))

/-- `felectronatq` (scatteringfactordata.cpp:373-378), `SFTElectron::standardLookup` (SFTElectron.cpp:64-67). -/
noncomputable def felectronatq (t : List (Str × WK ℝ)) (big eps : ℝ) (smbl : Str) (q : ℝ) : Option ℝ :=
  (findWK t smbl).map fun w => w.electronatstol big eps (q / (4 * Real.pi))

/-! ### Neutron scattering lengths -/

/-- The characters `"0123456789-"` (scatteringfactordata.cpp:295). -/
def isoChar (c : Char) : Bool := "0123456789-".toList.contains c

/-- The symbol of a row (scatteringfactordata.cpp:294-305); `none` is the exception.  `find_last_of('-')` is the last character that
is not different from it. -/
def rowName (w : Str) : Option Str :=
  match findFirstNot isoChar w with
  | none => none
  | some p0 =>
    let s := w.drop p0
    match findLastNot (fun c => c != '-') s with
    | none => some s
    | some p1 => some (s.drop (p1 + 1) ++ ['-'] ++ s.take p1)

/-- The element that a row may define as well (scatteringfactordata.cpp:322-325): the part after the first `-`. -/
def rowElement (smbl : Str) : Option Str := (findFirstNot (fun c => c != '-') smbl).map fun p2 => smbl.drop (p2 + 1)

/-- The loop body (scatteringfactordata.cpp:313-340) for a row with symbol `smbl`, concentration or half-life `chlf` and value `bc`;
`none` is the exception.  `*chlf.rbegin()` for an empty text is undefined behaviour, the model takes it as not `Y`. -/
def addRow {N : Type} (t : List (Str × N)) (smbl chlf : Str) (bc : N) : Option (List (Str × N)) :=
  if (find t smbl).isSome then none
  else
    let t := put t smbl bc
    match rowElement smbl with
    | none => some t
    | some el =>
      if chlf = "100".toList ∨ ((find t el).isNone ∧ chlf.getLast? = some 'Y') then
        if (find t el).isSome then none else some (put t el bc)
      else some t

/-- The loading loop (scatteringfactordata.cpp:285-341): the table when it ends and whether there was no exception.  When `addRow`
throws at the second test the row itself stays in the table, which is not modelled. -/
def loadBC {N : Type} (parse : Str → Option N) : List Reader → List (Str × N) → List (Str × N) × Bool
  | [], t => (t, true)
  | r :: rs, t =>
    if r.isignored then loadBC parse rs t
    else if r.wcount ≠ 11 then (t, false)
    else if (r.words.getD 3 []).isEmpty then loadBC parse rs t
    else match rowName (r.words.getD 0 []) with
      | none => (t, false)
      | some smbl => match parse (r.words.getD 3 []) with
        | none => (t, false)
        | some bc => match addRow t smbl (r.words.getD 1 []) bc with
          | none => (t, false)
          | some t' => loadBC parse rs t'

/-- `unordered_map::insert`. -/
def insertNew {N : Type} (t : List (Str × N)) (k : Str) (v : N) : List (Str × N) := if (find t k).isSome then t else put t k v

/-- The aliases (scatteringfactordata.cpp:342-345); `at` throws for a missing symbol (`none`). -/
def aliases {N : Type} (t : List (Str × N)) : Option (List (Str × N)) := do
  let t := insertNew t ['n'] (← find t "1-n".toList)
  let t := insertNew t ['D'] (← find t "2-H".toList)
  return insertNew t ['T'] (← find t "3-H".toList)

/-- The reader for the neutron table: comma separated (scatteringfactordata.cpp:282-284). -/
def bcReader : Reader := { new with separator := [','] }

/-- `getNeutronBCTable` (scatteringfactordata.cpp:271-347) in a process that has not loaded it; `none` is an exception. -/
def getBC {N : Type} (parse : Str → Option N) (text : Str) : Option (List (Str × N)) :=
  let r := loadBC parse (readAll (openStream text) bcReader) []
  if r.2 then aliases r.1 else none

/-- `bcneutron` (scatteringfactordata.cpp:408-424) on a loaded table, `SFTNeutron::standardLookup` (SFTNeutron.cpp:64-67). -/
def bcneutron {N : Type} (t : List (Str × N)) (smbl : Str) : Option N :=
  match find t smbl with
  | some b => some b
  | none =>
    let s := match findLastNot trail smbl with
      | some pe => smbl.take (pe + 1)
      | none => smbl
    find t s

end Verif.ScatData
