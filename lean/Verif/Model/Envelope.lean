import Verif.Lemmas.AssocMap
import Mathlib.Analysis.SpecialFunctions.Exp
import Mathlib.Analysis.SpecialFunctions.Trigonometric.Basic
/-!
Model of the PDF envelopes and baselines: src/diffpy/srreal/PDFEnvelope.cpp,
SphericalShapeEnvelope.cpp, StepCutEnvelope.cpp, QResolutionEnvelope.cpp, ScaleEnvelope.cpp,
LinearBaseline.cpp, ZeroBaseline.cpp and `PDFCalculator::applyBaseline`.  Numbers are reals; rounding
of doubles is not modelled.
-/
namespace Verif.Envelope
open Verif.AssocMap

/-- `SphericalShapeEnvelope::operator()` (SphericalShapeEnvelope.cpp:62-69) for the diameter `d`. -/
noncomputable def spherical (d r : ℝ) : ℝ :=
  if d ≤ 0 then 1
  else if d < r then 0
  else
    let x := r / d
    1 - 1.5 * x + 0.5 * x ^ 3

/-- `StepCutEnvelope::operator()` (StepCutEnvelope.cpp:59-63) for the cut `c`. -/
noncomputable def stepCut (c r : ℝ) : ℝ := if c > 0 ∧ r > c then 0 else 1

/-- `QResolutionEnvelope::operator()` (QResolutionEnvelope.cpp:61-67) for the damping `q`. -/
noncomputable def qResolution (q r : ℝ) : ℝ := if q > 0 then Real.exp (-((r * q) ^ 2) / 2) else 1

/-- `ScaleEnvelope::operator()` (ScaleEnvelope.cpp:59-62). -/
def scaleEnv (s _r : ℝ) : ℝ := s

/-- `LinearBaseline::operator()` (LinearBaseline.cpp:60-63). -/
def linearBaseline (slope r : ℝ) : ℝ := slope * r

/-- `ZeroBaseline::operator()` (ZeroBaseline.cpp:51-54). -/
def zeroBaseline (_r : ℝ) : ℝ := 0

/-- A `PDFEnvelopePtr` that is not null: the identity of the object and its `type()`. -/
structure Env where
  id : Nat
  type : String
deriving DecidableEq, Repr

/-- `PDFEnvelopeOwner::menvelope` (PDFEnvelope.hpp:93-96). -/
abbrev Owner := List (String × Env)

/-- `addEnvelope` (PDFEnvelope.cpp:62-66); `none` is the null pointer and `false` the exception. -/
def addEnvelope (o : Owner) (e : Option Env) : Owner × Bool :=
  match e with
  | none => (o, false)
  | some e => (put o e.type e, true)

/-- `addEnvelopeByType` (PDFEnvelope.cpp:69-75); `create` is `PDFEnvelope::createByType` and the result
`false` its exception. -/
def addEnvelopeByType (create : String → Option Env) (o : Owner) (tp : String) : Owner × Bool :=
  match create tp with
  | none => (o, false)
  | some e => (put o e.type e, true)

/-- `popEnvelope` (PDFEnvelope.cpp:78-89): erase the first entry that holds the pointer. -/
def popEnvelope (o : Owner) (e : Option Env) : Owner :=
  match o.find? (fun kv => decide (some kv.2 = e)) with
  | none => o
  | some kv => erase o kv.1

/-- `popEnvelopeByType` (PDFEnvelope.cpp:92-95). -/
def popEnvelopeByType (o : Owner) (tp : String) : Owner := erase o tp

/-- `getEnvelopeByType` (PDFEnvelope.cpp:98-117); `none` is the exception. -/
def getEnvelopeByType (o : Owner) (tp : String) : Option Env := find o tp

/-- `usedEnvelopeTypes` (PDFEnvelope.cpp:120-129), as a list for the set. -/
def usedEnvelopeTypes (o : Owner) : List String := keys o

/-- `clearEnvelopes` (PDFEnvelope.cpp:132-135). -/
def clearEnvelopes : Owner := []

/-- `applyEnvelopes` (PDFEnvelope.cpp:42-59): one pass over the data for every stored envelope; `fn` gives
the current function of an envelope object. -/
def applyEnvelopes (fn : Nat → ℝ → ℝ) (o : Owner) (x y : List ℝ) : List ℝ :=
  o.foldl (fun z kv => List.zipWith (fun xi zi => zi * fn kv.2.id xi) x z) y

/-- `PDFCalculator::applyBaseline` (PDFCalculator.cpp:405-418). -/
def applyBaseline (bl : ℝ → ℝ) (x y : List ℝ) : List ℝ := List.zipWith (fun xi zi => zi + bl xi) x y

end Verif.Envelope
