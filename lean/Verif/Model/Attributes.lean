import Verif.Lemmas.AssocMap
/-!
Model of named double attributes (src/diffpy/Attributes.hpp, Attributes.ipp, Attributes.cpp).

Objects live in a heap indexed by natural numbers.  The mutable data of an object is abstract
(`S`); a getter reads it, a setter replaces it and may throw.  `visits` is the sequence of objects
to which `accept` of the root object presents a visitor; in the library it depends on pointers
held by the calculator (peak width model, profile, baseline, envelopes), see `PDFCalculator.cpp:453-468`.
-/
namespace Verif.Attr
open Verif.AssocMap

/-- The exceptions: `DoubleAttributeError` for an unknown name (Attributes.cpp:86-91), `logic_error`
for a duplicate name (:92-97), `DoubleAttributeError` for a read-only attribute (:213-218) and any
exception thrown by the setter itself. -/
inductive Err | unknown | duplicate | readonly | setter
deriving DecidableEq, Repr

/-- `DoubleAttribute` (Attributes.ipp:98-134): a getter and an optional setter.  A setter gives the
data after the call and whether it threw. -/
structure Attr (S K : Type) where
  get : S → K
  set : Option (K → S → S × Bool)

/-- An `Attributes` object: `mdoubleattrs` (Attributes.hpp:106-111) and the data of the derived class. -/
structure Obj (S K : Type) where
  attrs : List (String × Attr S K)
  data : S

abbrev Heap (S K : Type) := Nat → Obj S K

variable {S K : Type}

/-- `registerBaseDoubleAttribute` (Attributes.cpp:206-210): a second registration of the same name
replaces the first, as for `rmin` in `PDFCalculator` and `PairQuantity`. -/
def register (o : Obj S K) (name : String) (a : Attr S K) : Obj S K :=
  { o with attrs := put o.attrs name a }

/-- `CountDoubleAttrVisitor::visit` (Attributes.cpp:108-112) applied along `accept`. -/
def count (h : Heap S K) (ids : List Nat) (name : String) : Nat :=
  ids.foldl (fun n i => n + if (find (h i).attrs name).isSome then 1 else 0) 0

/-- `Attributes::checkAttributeName` (Attributes.cpp:82-98). -/
def check (h : Heap S K) (ids : List Nat) (name : String) : Option Err :=
  if count h ids name = 0 then some .unknown
  else if count h ids name > 1 then some .duplicate
  else none

/-- `GetDoubleAttrVisitor::visit` (Attributes.cpp:128-137) with `DoubleAttribute::getValue`
(Attributes.ipp:107-113). -/
def getStep (h : Heap S K) (name : String) (v : Option K) (i : Nat) : Option K :=
  match find (h i).attrs name with
  | some a => some (a.get (h i).data)
  | none => v

/-- `GetDoubleAttrVisitor` along `accept`; `mvalue` is uninitialised (`none`) at the start
(Attributes.cpp:122-126). -/
def getVisit (h : Heap S K) (ids : List Nat) (name : String) : Option K :=
  ids.foldl (getStep h name) none

/-- `Attributes::getDoubleAttr` (Attributes.cpp:35-41).  The inner `none` would be a read of the
uninitialised `mvalue`. -/
def getDoubleAttr (h : Heap S K) (ids : List Nat) (name : String) : Except Err (Option K) :=
  match check h ids name with
  | some e => .error e
  | none => .ok (getVisit h ids name)

/-- Replace the data of one object. -/
def setData (h : Heap S K) (i : Nat) (d : S) : Heap S K :=
  fun j => if j = i then { (h i) with data := d } else h j

/-- `SetDoubleAttrVisitor::visit(Attributes&)` along `accept` (Attributes.cpp:161-170) with
`DoubleAttribute::setValue` (Attributes.ipp:115-121); an exception ends the traversal. -/
def setVisit (h : Heap S K) (ids : List Nat) (name : String) (x : K) : Heap S K × Option Err :=
  match ids with
  | [] => (h, none)
  | i :: ids =>
    match find (h i).attrs name with
    | none => setVisit h ids name x
    | some a =>
      match a.set with
      | none => (h, some .readonly)
      | some f =>
        if (f x (h i).data).2 then (setData h i (f x (h i).data).1, some .setter)
        else setVisit (setData h i (f x (h i).data).1) ids name x

/-- `Attributes::setDoubleAttr` (Attributes.cpp:44-49).  Simplification: the sequence of visited
objects is computed once, that is, a setter does not replace the objects held by the calculator. -/
def setDoubleAttr (h : Heap S K) (ids : List Nat) (name : String) (x : K) : Heap S K × Option Err :=
  match check h ids name with
  | some e => (h, some e)
  | none => setVisit h ids name x

/-- `Attributes::hasDoubleAttr` (Attributes.cpp:52-57). -/
def hasDoubleAttr (h : Heap S K) (ids : List Nat) (name : String) : Bool := count h ids name ≠ 0

/-- `NamesOfDoubleAttributesVisitor` along `accept` (Attributes.cpp:174-190), for
`namesOfDoubleAttributes` and `namesOfWritableDoubleAttributes` (:60-78). -/
def names (excludereadonly : Bool) (h : Heap S K) (ids : List Nat) : List String :=
  ids.flatMap fun i => ((h i).attrs.filter fun e => !(excludereadonly && e.2.set.isNone)).map (·.1)

/-! ### The registered names of the library classes -/

/-- Peak width models: ConstantPeakWidth.cpp:67-72, JeongPeakWidth.cpp:35-42;
`DebyeWallerPeakWidth` registers nothing. -/
inductive Width | constant | debyeWaller | jeong
deriving DecidableEq, Repr

/-- Names registered by a peak width model. -/
def Width.names : Width → List String
  | .constant => ["width", "bisowidth", "uisowidth"]
  | .debyeWaller => []
  | .jeong => ["delta1", "delta2", "qbroad", "qbroad_seperable"]

/-- Baselines: LinearBaseline.cpp:32-34; `ZeroBaseline` registers nothing. -/
inductive Baseline | zero | linear
deriving DecidableEq, Repr

/-- Names registered by a baseline. -/
def Baseline.names : Baseline → List String
  | .zero => []
  | .linear => ["slope"]

/-- Envelopes: QResolutionEnvelope.cpp:34, ScaleEnvelope.cpp:32, SphericalShapeEnvelope.cpp:34,
StepCutEnvelope.cpp:32. -/
inductive Envelope | qresolution | scale | spherical | stepcut
deriving DecidableEq, Repr

/-- Names registered by an envelope. -/
def Envelope.names : Envelope → List String
  | .qresolution => ["qdamp"]
  | .scale => ["scale"]
  | .spherical => ["spdiameter"]
  | .stepcut => ["stepcut"]

/-- Names registered by `PDFCalculator` itself (PDFCalculator.cpp:81-98); `rmin` and `rmax`
replace those of `PairQuantity` (PairQuantity.cpp:47-50). -/
def pdfNames : List String :=
  ["qmin", "qmax", "qstep", "rmin", "rmax", "rstep", "maxextension", "extendedrmin", "extendedrmax"]

/-- Names visited by `pdfcalc_accept` (PDFCalculator.cpp:453-468); every peak profile registers
`peakprecision` (PeakProfile.cpp:38). -/
def pdfAccept (w : Width) (b : Baseline) (es : List Envelope) : List String :=
  w.names ++ ["peakprecision"] ++ b.names ++ es.flatMap Envelope.names ++ pdfNames

/-- Names visited by `debyepdfcalc_accept` (DebyePDFCalculator.cpp:235-248) with the registrations
in DebyePDFCalculator.cpp:62-80 and BaseDebyeSum.cpp:60. -/
def debyeAccept (w : Width) (es : List Envelope) : List String :=
  w.names ++ es.flatMap Envelope.names ++ (pdfNames ++ ["debyeprecision"])

end Verif.Attr
