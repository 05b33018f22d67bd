import Verif.Model.PeakShape
import Verif.Model.Envelope
import Verif.Model.Registry
/-!
Model of the component objects of the calculators - envelopes, baselines, peak profiles and peak width models - as objects
with named numeric settings, and of the registration of all component classes when the library is loaded.

Simplifications: numbers are reals, a ticker is the number of its clicks, an operation on a handle that does not exist has no
effect (C++ has no such handles), objects are never deleted.
-/
namespace Verif.Components
open Verif.Peak

/-! ### The registries -/

/-- The abstract bases, each with a registry of its own (PDFEnvelope.cpp:34, PDFBaseline.cpp:27, PeakProfile.cpp:26,
PeakWidthModel.cpp:30, AtomRadiiTable.cpp:32, ScatteringFactorTable.cpp:30). -/
inductive Base | envelope | baseline | profile | width | radii | sft
deriving DecidableEq, Repr

/-- The classes that the library registers. -/
inductive Cls
  | scale | qresolution | spherical | stepcut
  | zero | linear
  | gaussian | cropped
  | constant | debyeWaller | jeong
  | constRadii
  | xray | electron | neutron | electronNumber
deriving DecidableEq, Repr

/-- The base of a class (class declarations in the headers). -/
def Cls.base : Cls → Base
  | .scale | .qresolution | .spherical | .stepcut => .envelope
  | .zero | .linear => .baseline
  | .gaussian | .cropped => .profile
  | .constant | .debyeWaller | .jeong => .width
  | .constRadii => .radii
  | .xray | .electron | .neutron | .electronNumber => .sft

/-- `type()` (ScaleEnvelope.cpp:52-56, QResolutionEnvelope.cpp:54-58, SphericalShapeEnvelope.cpp:55-59, StepCutEnvelope.cpp:52-56,
ZeroBaseline.cpp:44-48, LinearBaseline.cpp:53-57, GaussianProfile.cpp:57-61, CroppedGaussianProfile.cpp:57-61,
ConstantPeakWidth.cpp:91-95, DebyeWallerPeakWidth.cpp:46-50, JeongPeakWidth.cpp:61-65, ConstantRadiiTable.cpp:56-60,
SFTXray.cpp:48-52, SFTElectron.cpp:49-53, SFTNeutron.cpp:49-53, SFTElectronNumber.cpp:48-52). -/
def Cls.typ : Cls → String
  | .scale => "scale"
  | .qresolution => "qresolution"
  | .spherical => "sphericalshape"
  | .stepcut => "stepcut"
  | .zero => "zero"
  | .linear => "linear"
  | .gaussian => "gaussian"
  | .cropped => "croppedgaussian"
  | .constant => "constant"
  | .debyeWaller => "debye-waller"
  | .jeong => "jeong"
  | .constRadii => "constant"
  | .xray => "xray"
  | .electron => "electron"
  | .neutron => "neutron"
  | .electronNumber => "electronnumber"

/-- `radiationType()` (SFTXray.cpp:56-60, SFTElectron.cpp:57-61, SFTNeutron.cpp:57-61, SFTElectronNumber.cpp:56-60), used by the
tables of scattering factors only. -/
def Cls.radiation : Cls → Option String
  | .xray => some "X"
  | .electron => some "E"
  | .neutron => some "N"
  | .electronNumber => some "EN"
  | _ => none

/-- The registries of all bases. -/
abbrev Regs := Base → Registry.Reg

/-- One initialiser `bool reg_C = C().registerThisType();` (ScaleEnvelope.cpp:79, QResolutionEnvelope.cpp:83,
SphericalShapeEnvelope.cpp:85, StepCutEnvelope.cpp:79, ZeroBaseline.cpp:58, LinearBaseline.cpp:80, GaussianProfile.cpp:97,
CroppedGaussianProfile.cpp:88, ConstantPeakWidth.cpp:126, DebyeWallerPeakWidth.cpp:73, JeongPeakWidth.cpp:157,
ConstantRadiiTable.cpp:83, SFTXray.cpp:70, SFTElectron.cpp:71, SFTNeutron.cpp:71, SFTElectronNumber.cpp:70); tables of scattering
factors also register an alias (ScatteringFactorTable.cpp:38-45). -/
def regOne (rs : Regs) (c : Cls) : Regs × Bool :=
  let r := match c.radiation with
    | none => Registry.registerThisType (rs c.base) c.typ
    | some rad => Registry.sftRegister (rs c.base) c.typ rad
  (fun b => if b = c.base then r.1 else rs b, r.2)

/-- The static initialisers in the order `order`, which the language leaves open between source files; `false` for an exception,
which ends the program. -/
def regAll : List Cls → Regs × Bool
  | order => order.foldl (fun s c => ((regOne s.1 c).1, s.2 && (regOne s.1 c).2)) (fun _ => ⟨[], 0⟩, true)

/-! ### Objects -/

/-- The data of an object with settings.  Peak width models and profiles have a ticker (PeakWidthModel.hpp:56,
PeakProfile.hpp:63). -/
inductive Comp
  | scale (x : ℝ)
  | qresolution (x : ℝ)
  | spherical (x : ℝ)
  | stepcut (x : ℝ)
  | zero
  | linear (x : ℝ)
  | gaussian (g : Gauss)
  | cropped (c : Cropped)
  | constant (w : ConstW)
  | debyeWaller (clicks : Nat)
  | jeong (j : Jeong) (clicks : Nat)

/-- The class of an object. -/
def Comp.cls : Comp → Cls
  | .scale _ => .scale
  | .qresolution _ => .qresolution
  | .spherical _ => .spherical
  | .stepcut _ => .stepcut
  | .zero => .zero
  | .linear _ => .linear
  | .gaussian _ => .gaussian
  | .cropped _ => .cropped
  | .constant _ => .constant
  | .debyeWaller _ => .debyeWaller
  | .jeong _ _ => .jeong

/-- The default constructors (ScaleEnvelope.cpp:29-34, QResolutionEnvelope.cpp:31-36, SphericalShapeEnvelope.cpp:31-37,
StepCutEnvelope.cpp:29-34, LinearBaseline.cpp:29-35, GaussianProfile.cpp:35-39, CroppedGaussianProfile.cpp:35-39,
ConstantPeakWidth.cpp:65-73, JeongPeakWidth.cpp:32-43); `none` for the tables, which are not modelled here. -/
noncomputable def Comp.new : Cls → Option Comp
  | .scale => some (.scale 1)
  | .qresolution => some (.qresolution 0)
  | .spherical => some (.spherical 0)
  | .stepcut => some (.stepcut 0)
  | .zero => some .zero
  | .linear => some (.linear 0)
  | .gaussian => some (.gaussian Gauss.new)
  | .cropped => some (.cropped Cropped.new)
  | .constant => some (.constant ⟨0, 0⟩)
  | .debyeWaller => some (.debyeWaller 0)
  | .jeong => some (.jeong ⟨0, 0, 0, 0⟩ 0)
  | _ => none

/-- `create()` of an object (ScaleEnvelope.cpp:37-41, QResolutionEnvelope.cpp:39-43, SphericalShapeEnvelope.cpp:40-44,
StepCutEnvelope.cpp:37-41, ZeroBaseline.cpp:29-33, LinearBaseline.cpp:38-42, GaussianProfile.cpp:42-46,
CroppedGaussianProfile.cpp:42-46, ConstantPeakWidth.cpp:76-80, DebyeWallerPeakWidth.cpp:31-35, JeongPeakWidth.cpp:46-50). -/
noncomputable def Comp.create (o : Comp) : Option Comp := Comp.new o.cls

/-- `clone()` (ScaleEnvelope.cpp:44-48, QResolutionEnvelope.cpp:46-50, SphericalShapeEnvelope.cpp:47-51, StepCutEnvelope.cpp:44-48,
ZeroBaseline.cpp:36-40, LinearBaseline.cpp:45-49, GaussianProfile.cpp:49-53, CroppedGaussianProfile.cpp:49-53,
ConstantPeakWidth.cpp:83-87, DebyeWallerPeakWidth.cpp:38-42, JeongPeakWidth.cpp:53-57): the copy constructor copies all members,
the ticker too. -/
def Comp.clone (o : Comp) : Comp := o

/-- `getDoubleAttr` (Attributes.cpp:35-41) of the registered names (ScaleEnvelope.cpp:32-33, QResolutionEnvelope.cpp:34-35,
SphericalShapeEnvelope.cpp:34-36, StepCutEnvelope.cpp:32-33, LinearBaseline.cpp:32-34, PeakProfile.cpp:38-39,
ConstantPeakWidth.cpp:67-72, JeongPeakWidth.cpp:35-42); `none` for an unknown name. -/
noncomputable def Comp.get (o : Comp) (name : String) : Option ℝ :=
  match o with
  | .scale x => if name = "scale" then some x else none
  | .qresolution x => if name = "qdamp" then some x else none
  | .spherical x => if name = "spdiameter" then some x else none
  | .stepcut x => if name = "stepcut" then some x else none
  | .zero => none
  | .linear x => if name = "slope" then some x else none
  | .gaussian g => if name = "peakprecision" then some g.precision else none
  | .cropped c => if name = "peakprecision" then some c.g.precision else none
  | .constant w =>
    if name = "width" then some w.width
    else if name = "bisowidth" then some w.getBiso
    else if name = "uisowidth" then some w.getUiso
    else none
  | .debyeWaller _ => none
  | .jeong j _ =>
    if name = "delta1" then some j.delta1
    else if name = "delta2" then some j.delta2
    else if name = "qbroad" then some j.qbroad
    else if name = "qbroad_seperable" then some j.qbroadSep
    else none

/-- `if (member != x) mticker.click();` (JeongPeakWidth.cpp:99, :112, :130, :137). -/
noncomputable def clickIf (old x : ℝ) (clicks : Nat) : Nat := if old ≠ x then clicks + 1 else clicks

/-- `setDoubleAttr` (Attributes.cpp:44-49) with the setters (ScaleEnvelope.cpp:65-68, QResolutionEnvelope.cpp:70-73,
SphericalShapeEnvelope.cpp:72-75, StepCutEnvelope.cpp:66-69, LinearBaseline.cpp:66-69, JeongPeakWidth.cpp:97-139; virtual
`setPrecision` and the setters of ConstantPeakWidth are those of `Verif.Peak`); `none` for an unknown name. -/
noncomputable def Comp.set (o : Comp) (name : String) (x : ℝ) : Option Comp :=
  match o with
  | .scale _ => if name = "scale" then some (.scale x) else none
  | .qresolution _ => if name = "qdamp" then some (.qresolution x) else none
  | .spherical _ => if name = "spdiameter" then some (.spherical x) else none
  | .stepcut _ => if name = "stepcut" then some (.stepcut x) else none
  | .zero => none
  | .linear _ => if name = "slope" then some (.linear x) else none
  | .gaussian g => if name = "peakprecision" then some (.gaussian (g.setPrecision x)) else none
  | .cropped c => if name = "peakprecision" then some (.cropped (c.setPrecision x)) else none
  | .constant w =>
    if name = "width" then some (.constant (w.setWidth x))
    else if name = "bisowidth" then some (.constant (w.setBiso x))
    else if name = "uisowidth" then some (.constant (w.setUiso x))
    else none
  | .debyeWaller _ => none
  | .jeong j n =>
    if name = "delta1" then some (.jeong { j with delta1 := x } (clickIf j.delta1 x n))
    else if name = "delta2" then some (.jeong { j with delta2 := x } (clickIf j.delta2 x n))
    else if name = "qbroad" then some (.jeong { j with qbroad := x } (clickIf j.qbroad x n))
    else if name = "qbroad_seperable" then some (.jeong { j with qbroadSep := x } (clickIf j.qbroadSep x n))
    else none

/-- The number of clicks of `ticker()` (PeakWidthModel.hpp:50, PeakProfile.hpp:57); `none` for classes without a ticker. -/
def Comp.clicks : Comp → Option Nat
  | .gaussian g => some g.clicks
  | .cropped c => some c.g.clicks
  | .constant w => some w.clicks
  | .debyeWaller n => some n
  | .jeong _ n => some n
  | _ => none

/-- The value at `x` of an envelope, a baseline, or a profile of width `w` (`none` for NaN), and the width of a bond of length `x`
with mean square displacement `w` (operators in ScaleEnvelope.cpp:59-62, QResolutionEnvelope.cpp:61-67,
SphericalShapeEnvelope.cpp:62-69, StepCutEnvelope.cpp:59-63, ZeroBaseline.cpp:51-54, LinearBaseline.cpp:60-63,
GaussianProfile.cpp:64-70, CroppedGaussianProfile.cpp:64-71, `calculate` in the peak width models). -/
noncomputable def Comp.value (o : Comp) (x w : ℝ) : Option ℝ :=
  match o with
  | .scale s => some (Envelope.scaleEnv s x)
  | .qresolution q => some (Envelope.qResolution q x)
  | .spherical d => some (Envelope.spherical d x)
  | .stepcut c => some (Envelope.stepCut c x)
  | .zero => some (Envelope.zeroBaseline x)
  | .linear s => some (Envelope.linearBaseline s x)
  | .gaussian _ => some (gaussY x w)
  | .cropped c => c.y x w
  | .constant c => some (c.calculate x w)
  | .debyeWaller _ => some (dwCalculate w)
  | .jeong j _ => some (j.calculate x w)

/-- The bounds of a profile of width `w` (GaussianProfile.cpp:73-83), of no meaning for other objects. -/
noncomputable def Comp.bounds (o : Comp) (w : ℝ) : Option (ℝ × ℝ) :=
  match o with
  | .gaussian g => some (g.lo w, g.hi w)
  | .cropped c => some (c.g.lo w, c.g.hi w)
  | _ => none

/-! ### Programs -/

/-- Objects in order of creation; the position is the handle. -/
abbrev Heap := List Comp

/-- What a program does: construct an object (or `createByType` for the registered name), `create()` or `clone()` from an
object, set an attribute of an object. -/
inductive Op
  | new (c : Cls)
  | create (h : Nat)
  | clone (h : Nat)
  | set (h : Nat) (name : String) (x : ℝ)

/-- Add an object, if there is one. -/
def add (hp : Heap) : Option Comp → Heap
  | none => hp
  | some o => hp ++ [o]

/-- One operation; a rejected attribute (Attributes.cpp:82-98) changes nothing. -/
noncomputable def step (hp : Heap) : Op → Heap
  | .new c => add hp (Comp.new c)
  | .create h => add hp (hp[h]?.bind Comp.create)
  | .clone h => add hp (hp[h]?.map Comp.clone)
  | .set h name x =>
    match hp[h]?.bind fun o => o.set name x with
    | none => hp
    | some o => hp.set h o

/-- A program from an empty heap, operations in order. -/
noncomputable def run (ops : List Op) : Heap := ops.foldl step []

end Verif.Components
