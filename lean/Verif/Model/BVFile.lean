import Verif.Model.Input
import Verif.Model.BV
/-!
Model of the standard table of bond valence parameters, loaded from a data file (BVParametersTable.cpp:160-195), and of
`BVParam::setFromCifLine` (BVParam.cpp:94-108).
-/
namespace Verif.BVFile
open Verif.AssocMap Verif.LineReader Verif.Input
open Verif.BV hiding Str

/-- A `BVParam`: the key and the other members (BVParam.hpp:54-60). -/
abbrev Param := Key × Par ℚ

/-- The extraction at BVParam.cpp:99-106; `none` is the exception.  Note that the stream is only tested at the end:
once an extraction failed all later ones fail. -/
def parseCif (line : Str) : Option Param :=
  let w0 := getword (openStream line) []
  if w0.1.fail then none else
  match getInt w0.1 with
  | (_, none) => none
  | (s1, some v0) =>
    let w1 := getword s1 []
    if w1.1.fail then none else
    match getInt w1.1 with
    | (_, none) => none
    | (s2, some v1) =>
      match getDouble s2 with
      | (_, none) => none
      | (s3, some ro) =>
        match getDouble s3 with
        | (_, none) => none
        | (s4, some b) =>
          let w2 := getword s4 []
          if w2.1.fail then none
          else some (mkKey w0.2 v0 w1.2 v1, ⟨ro, b, w2.2⟩)

/-- `setFromCifLine` (BVParam.cpp:94-108): the object after the call and whether it threw. -/
def setFromCifLine (p : Param) (line : Str) : Param × Bool :=
  match parseCif line with
  | none => (p, true)
  | some q => (q, false)

/-- `the_set->insert(bp)` (BVParametersTable.cpp:190): an equal element is kept. -/
def insertBV (t : SetBV ℚ) (p : Param) : SetBV ℚ := match find t p.1 with
  | some _ => t
  | none => p :: t

/-- The data loop (BVParametersTable.cpp:184-191): the set when it ends and whether it ended without an exception. -/
def dataLoop : List Reader → SetBV ℚ → SetBV ℚ × Bool
  | [], t => (t, true)
  | r :: rs, t =>
    if r.isignored then dataLoop rs t
    else match parseCif r.line with
      | none => (t, false)
      | some p => dataLoop rs (insertBV t p)

/-- The search for the last line of the header (BVParametersTable.cpp:177-180): the lines left. -/
def findMark : List Reader → List Reader
  | [] => []
  | r :: rs => if r.wcount ≠ 0 ∧ r.words.head? = some "_valence_param_B".toList then rs else findMark rs

/-- The search for an empty line (BVParametersTable.cpp:182). -/
def findBlank : List Reader → List Reader
  | [] => []
  | r :: rs => if r.isblank then rs else findBlank rs

/-- `getStandardSetOfBVParam` (BVParametersTable.cpp:160-195) with the static pointer as its state: the new state and the
result, `none` for an exception.  `file` is the text of the data file, `none` when it cannot be found or opened. -/
def standardSet (file : Option Str) (st : Option (SetBV ℚ)) : Option (SetBV ℚ) × Option (SetBV ℚ) :=
  match st with
  | some t => (some t, some t)
  | none =>
    match file with
    | none => (some [], none)
    | some text =>
      let r := dataLoop (findBlank (findMark (readAll (openStream text) new))) []
      (some r.1, if r.2 then some r.1 else none)

end Verif.BVFile
