import Verif.Lemmas.AssocMap
import Verif.Model.AtomUtils
/-!
Models of AtomRadiiTable (src/diffpy/srreal/AtomRadiiTable.cpp) and ScatteringFactorTable
(src/diffpy/srreal/ScatteringFactorTable.cpp).  Strings are lists of characters.
-/
namespace Verif.Tables
open Verif.AssocMap Verif.AtomUtils

abbrev Str := List Char

variable {K : Type}

/-! ### Atom radii -/

/-- `AtomRadiiTable`: `mcustomradius` (AtomRadiiTable.hpp:68). -/
abbrev Radii (K : Type) := List (Str × K)

/-- `AtomRadiiTable::lookup` (AtomRadiiTable.cpp:38-44); `std` is the virtual `standardLookup`,
e.g. `ConstantRadiiTable::standardLookup` (ConstantRadiiTable.cpp:62-65). -/
def lookup (std : Str → K) (t : Radii K) (s : Str) : K :=
  match find t s with
  | some r => r
  | none => std s

/-- `AtomRadiiTable::setCustom` (AtomRadiiTable.cpp:47-50). -/
def setCustom (t : Radii K) (s : Str) (r : K) : Radii K := put t s r

/-- `AtomRadiiTable::resetCustom` (AtomRadiiTable.cpp:87-90). -/
def resetCustom (t : Radii K) (s : Str) : Radii K := erase t s

/-- `AtomRadiiTable::resetAll` (AtomRadiiTable.cpp:93-96). -/
def resetAll (_ : Radii K) : Radii K := []

/-- `istringstream >> w` until failure (AtomRadiiTable.cpp:62): the maximal runs of characters other
than a space; `cur` holds the current run reversed. -/
def wordsAux (cur : Str) : Str → List Str
  | [] => if cur = [] then [] else [cur.reverse]
  | c :: cs =>
    if c = ' ' then (if cur = [] then wordsAux [] cs else cur.reverse :: wordsAux [] cs)
    else wordsAux (c :: cur) cs

/-- Lines 56-62 of `fromString`: remove white space, turn commas into spaces, split. -/
def words (s : Str) : List Str :=
  wordsAux [] ((s.filter fun c => !isSpace c).map fun c => if c = ',' then ' ' else c)

/-- `w.find(':')` with the two `substr` calls (AtomRadiiTable.cpp:64-74): `none` when there is no colon. -/
def splitColon : Str → Option (Str × Str)
  | [] => none
  | c :: cs => if c = ':' then some ([], cs) else (splitColon cs).map fun e => (c :: e.1, e.2)

/-- The loop of `fromString` (AtomRadiiTable.cpp:60-82) filling the local `rds`; `none` is an
`invalid_argument`.  `num` is `istringstream >> double` on the text after the colon. -/
def parseEntries (num : Str → Option K) (rds : Radii K) : List Str → Option (Radii K)
  | [] => some rds
  | w :: ws =>
    match splitColon w with
    | none => none
    | some (smbl, txt) =>
      match num txt with
      | none => none
      | some v => parseEntries num (put rds smbl v) ws

/-- `AtomRadiiTable::fromString` (AtomRadiiTable.cpp:53-84): the table afterwards and whether the
call succeeded.  `rds` is traversed in the order of its list; its keys are distinct. -/
def fromString (num : Str → Option K) (t : Radii K) (s : Str) : Radii K × Bool :=
  match parseEntries num [] (words s) with
  | none => (t, false)
  | some rds => (rds.foldl (fun t kv => put t kv.1 kv.2) t, true)

/-- Strings are compared as `std::string::operator<`, by character codes. -/
def strLe : Str → Str → Bool
  | [], _ => true
  | _ :: _, [] => false
  | a :: as, b :: bs => a.toNat < b.toNat || (a.toNat = b.toNat && strLe as bs)

/-- Join with a separator, as the output loop of `toString` (AtomRadiiTable.cpp:118-122). -/
def join (sep : Str) : List Str → Str
  | [] => []
  | [w] => w
  | w :: ws => w ++ sep ++ join sep ws

/-- `AtomRadiiTable::toString` (AtomRadiiTable.cpp:106-124); `fmt` is `ostream << double`, which in
the library keeps six significant digits. -/
def toString [Inhabited K] (fmt : K → Str) (t : Radii K) (sep : Str) : Str :=
  join sep (((keys t).mergeSort strLe).map fun s => s ++ ':' :: fmt ((find t s).getD default))

/-- A call that changes a radii table. -/
inductive ROp (K : Type)
  | set (s : Str) (r : K)
  | reset (s : Str)
  | resetAll
  | fromString (s : Str)

/-- One call. -/
def rstep (num : Str → Option K) (t : Radii K) : ROp K → Radii K
  | .set s r => setCustom t s r
  | .reset s => resetCustom t s
  | .resetAll => resetAll t
  | .fromString s => (fromString num t s).1

/-! ### Scattering factors -/

/-- `ScatteringFactorTable`: `mcustom` and the number of clicks of `mticker`. -/
structure SFTable (K : Type) where
  custom : List (Str × (Str × K))
  clicks : Nat

/-- `ScatteringFactorTable::lookup` (ScatteringFactorTable.cpp:46-60); `std` is `standardLookup`,
`none` when it throws for an unknown symbol. -/
def SFTable.lookup [Mul K] (std : Str → K → Option K) (t : SFTable K) (s : Str) (q : K) : Option K :=
  match find t.custom s with
  | some (src, scale) => (std src q).map fun f => f * scale
  | none => std s q

/-- The common tail of both `setCustomAs` (ScatteringFactorTable.cpp:67-70, 80-83). -/
def SFTable.assign [DecidableEq K] (t : SFTable K) (s : Str) (e : Str × K) : SFTable K :=
  if find t.custom s = some e then t else ⟨put t.custom s e, t.clicks + 1⟩

/-- `setCustomAs(smbl, srcsmbl)` (ScatteringFactorTable.cpp:63-70). -/
def SFTable.setCustomAs [One K] [DecidableEq K] (t : SFTable K) (s src : Str) : SFTable K :=
  t.assign s (src, 1)

/-- `setCustomAs(smbl, srcsmbl, value, q)` (ScatteringFactorTable.cpp:73-83); `none` when
`standardLookup` throws.  Simplification: exact division. -/
def SFTable.setCustomVal [Div K] [DecidableEq K] (std : Str → K → Option K) (t : SFTable K) (s src : Str)
    (value q : K) : Option (SFTable K) :=
  (std src q).map fun f => t.assign s (src, value / f)

/-- `resetCustom` (ScatteringFactorTable.cpp:86-90). -/
def SFTable.resetCustom (t : SFTable K) (s : Str) : SFTable K :=
  ⟨erase t.custom s, if (find t.custom s).isSome then t.clicks + 1 else t.clicks⟩

/-- `resetAll` (ScatteringFactorTable.cpp:93-97). -/
def SFTable.resetAll (t : SFTable K) : SFTable K :=
  ⟨[], if !t.custom.isEmpty then t.clicks + 1 else t.clicks⟩

/-- `getCustomSymbols` (ScatteringFactorTable.cpp:100-109). -/
def SFTable.customSymbols (t : SFTable K) : List Str := keys t.custom

/-- A call that changes a scattering factor table. -/
inductive SOp (K : Type)
  | setAs (s src : Str)
  | setVal (s src : Str) (value q : K)
  | reset (s : Str)
  | resetAll

/-- One call; a throwing call leaves the table as it is. -/
def sstep [One K] [Div K] [DecidableEq K] (std : Str → K → Option K) (t : SFTable K) : SOp K → SFTable K
  | .setAs s src => t.setCustomAs s src
  | .setVal s src v q => (t.setCustomVal std s src v q).getD t
  | .reset s => t.resetCustom s
  | .resetAll => t.resetAll

end Verif.Tables
