import Mathlib.Data.Set.Finite.Basic
import Verif.Model.Ticker
/-
Saving objects to archives and loading them (src/diffpy/serialization.ipp, serialization.hpp and the `serialize` templates of
all classes).  The archive is a list of items; the byte format, object tracking (an object that is reachable by two pointers is
written once) and the archive header belong to boost and are not modelled.
-/
namespace Verif.Archive
open Verif.Ticker

/-- Bit pattern of a `double`: binary archives copy the bytes (serialization.hpp:37-40), NaN and signed zeros included. -/
abbrev Dbl := UInt64

/-- Items of an archive: values of primitive types, container sizes, class versions, class names and null pointers. -/
inductive Tok
  | dbl (x : Dbl) | int (n : Int) | bool (b : Bool) | str (s : String) | len (n : Nat) | ver (n : Nat) | cls (s : String) | null
deriving DecidableEq, Repr

/-- Outcome of loading into an object: the object, the unread rest and the global clock of the tickers (which constructors
of loaded components advance), or an exception that leaves the object as given. -/
inductive Res (σ : Type)
  | ok (y : σ) (rest : List Tok) (g : Tick)
  | fail (y : σ)

/-- The two directions of a `serialize` template.  `save ga x` writes `x` when the global clock is `ga` (`none`: exception);
`load g x0 toks` reads into the object `x0` when the clock is `g`. -/
structure Ser (σ : Type) where
  save : Tick → σ → Option (List Tok)
  load : Tick → σ → List Tok → Res σ

/-- A value of a primitive type (boost archive). -/
def prim {α : Type} (mk : α → Tok) (un : Tok → Option α) : Ser α where
  save _ x := some [mk x]
  load g x0 toks := match toks with
    | [] => .fail x0
    | t :: r => match un t with
      | some v => .ok v r g
      | none => .fail x0

/-- `double`. -/
def sDbl : Ser Dbl := prim .dbl (fun | .dbl x => some x | _ => none)
/-- `int`. -/
def sInt : Ser Int := prim .int (fun | .int x => some x | _ => none)
/-- `bool`. -/
def sBool : Ser Bool := prim .bool (fun | .bool x => some x | _ => none)
/-- `std::string`. -/
def sStr : Ser String := prim .str (fun | .str x => some x | _ => none)

/-- A member: `ar & f` writes the member or reads into it; an exception inside leaves the member half loaded. -/
def memb {σ α : Type} (get : σ → α) (set : σ → α → σ) (s : Ser α) : Ser σ where
  save ga x := s.save ga (get x)
  load g x0 toks := match s.load g (get x0) toks with
    | .ok v r g' => .ok (set x0 v) r g'
    | .fail v => .fail (set x0 v)

/-- A `serialize` template without statements. -/
def nop {σ : Type} : Ser σ where
  save _ _ := some []
  load g x0 toks := .ok x0 toks g

/-- Statements one after another. -/
def seq {σ : Type} (s t : Ser σ) : Ser σ where
  save ga x := do
    let a ← s.save ga x
    let b ← t.save ga x
    return a ++ b
  load g x0 toks := match s.load g x0 toks with
    | .ok y r g' => t.load g' y r
    | .fail y => .fail y

/-- The body of a `serialize` template. -/
def seqs {σ : Type} : List (Ser σ) → Ser σ
  | [] => nop
  | s :: ss => seq s (seqs ss)

/-- An object of a class with version `cur` (BOOST_CLASS_VERSION, 0 by default): the version is written before the content,
versions above `cur` are rejected with an exception, and `serialize` receives the archived version. -/
def cls {σ : Type} (cur : Nat) (body : Nat → Ser σ) : Ser σ where
  save ga x := do
    let b ← (body cur).save ga x
    return .ver cur :: b
  load g x0 toks := match toks with
    | .ver v :: r => if v ≤ cur then (body v).load g x0 r else .fail x0
    | _ => .fail x0

macro "fld(" f:ident "," s:term ")" : term =>
  `(memb (fun x => x.$f) (fun x v => { x with $f:ident := v }) $s)

/-- Written elements of a sequence. -/
def saveList {α : Type} (s : Ser α) (ga : Tick) : List α → Option (List Tok)
  | [] => some []
  | a :: as => do
    let b ← s.save ga a
    let c ← saveList s ga as
    return b ++ c

/-- `t.resize(n)` of boost's `load` for vectors. -/
def resize {α : Type} (d : α) (n : Nat) (old : List α) : List α := old.take n ++ List.replicate (n - old.length) d

/-- The elements are read one by one into the resized vector. -/
def loadList {α : Type} (s : Ser α) (g : Tick) : List α → List Tok → Res (List α)
  | [], toks => .ok [] toks g
  | a :: as, toks => match s.load g a toks with
    | .fail b => .fail (b :: as)
    | .ok b r g' => match loadList s g' as r with
      | .fail bs => .fail (b :: bs)
      | .ok bs r' g'' => .ok (b :: bs) r' g''

/-- `std::vector` and `std::list` (boost/serialization/vector.hpp): the size, then the elements; loading resizes the container
(new elements are default constructed, `d`) and loads into its elements. -/
def vec {α : Type} (d : α) (s : Ser α) : Ser (List α) where
  save ga x := do
    let b ← saveList s ga x
    return .len x.length :: b
  load g x0 toks := match toks with
    | .len n :: r => loadList s g (resize d n x0) r
    | _ => .fail x0

/-- The content of `std::map`, `std::unordered_map`; a set has values of type `Unit`. -/
@[ext] structure FMap (K V : Type) where
  find : K → Option V
  fin : {k | find k ≠ none}.Finite

namespace FMap
variable {K V : Type}

/-- The empty container. -/
def empty : FMap K V := ⟨fun _ => none, by simp⟩

/-- `insert` keeps an existing element. -/
def insert [DecidableEq K] (m : FMap K V) (k : K) (v : V) : FMap K V where
  find k' := match m.find k' with
    | some w => some w
    | none => if k' = k then some v else none
  fin := by
    refine Set.Finite.subset (m.fin.union (Set.finite_singleton k)) ?_
    intro k' h
    by_cases h2 : m.find k' = none
    · right
      by_contra h3
      simp only [Set.mem_singleton_iff] at h3
      simp [h2, h3] at h
    · left; exact h2

end FMap

/-- The order in which containers with a given content are iterated: any order, it may depend on the history of the container
and on hash values. -/
structure Orders where
  enum : {K V : Type} → FMap K V → List (K × V)
  mem_enum : ∀ {K V : Type} (m : FMap K V) k v, (k, v) ∈ enum m ↔ m.find k = some v
  nodup : ∀ {K V : Type} (m : FMap K V), ((enum m).map Prod.fst).Nodup

/-- Read `n` elements into a cleared container. -/
def loadMap {K V : Type} [DecidableEq K] (s : Ser (K × V)) (d : K × V) (g : Tick) : Nat → FMap K V → List Tok → Res (FMap K V)
  | 0, m, toks => .ok m toks g
  | n + 1, m, toks => match s.load g d toks with
    | .fail _ => .fail m
    | .ok (k, v) r g' => loadMap s d g' n (m.insert k v) r

/-- Associative containers (boost/serialization/unordered_map.hpp and others): the size, then the elements in iteration order;
loading clears the container and inserts the elements. -/
def assoc (it : Orders) {K V : Type} [DecidableEq K] (d : K × V) (s : Ser (K × V)) : Ser (FMap K V) where
  save ga x := do
    let b ← saveList s ga (it.enum x)
    return .len (it.enum x).length :: b
  load g x0 toks := match toks with
    | .len n :: r => loadMap s d g n .empty r
    | _ => .fail x0

/-- A pair of values. -/
def sPair {α β : Type} (s : Ser α) (t : Ser β) : Ser (α × β) :=
  seqs [memb (fun x => x.1) (fun x v => (v, x.2)) s, memb (fun x => x.2) (fun x v => (x.1, v)) t]

/-- `EventTicker::save`, `load` (EventTicker.hpp:68-84): the value of the ticker and the global clock. -/
def sTick : Ser Tick where
  save ga x := some [.int x.1, .int x.2, .int ga.1, .int ga.2]
  load g x0 toks := match toks with
    | .int a :: .int b :: .int c :: .int d :: r => .ok (Ticker.load g (a, b) (c, d)) r g
    | _ => .fail x0

/-- A class that can be reached through a base pointer: exported name, content, default constructed object (with the number of
times its constructor advances the clock). -/
structure Alt (τ : Type) where
  α : Type
  name : String
  ser : Ser α
  new : α
  clicks : Tick → Tick
  inj : α → τ
  prj : τ → Option α

/-- Exported class of an object, if it has one. -/
def findAlt {τ : Type} : List (Alt τ) → τ → Option (Σ a : Alt τ, a.α)
  | [], _ => none
  | a :: as, o => match a.prj o with
    | some v => some ⟨a, v⟩
    | none => findAlt as o

/-- `boost::shared_ptr` to a polymorphic class: null, or the exported name of the class and the content.  Objects of classes
without export throw `unregistered_class` when saved (BOOST_CLASS_EXPORT_KEY/IMPLEMENT).  Loading creates a new object, and the
pointer is assigned when it is complete. -/
def ptr {τ : Type} (alts : List (Alt τ)) : Ser (Option τ) where
  save ga x := match x with
    | none => some [.null]
    | some o => match findAlt alts o with
      | none => none
      | some ⟨a, v⟩ => do
        let b ← a.ser.save ga v
        return .cls a.name :: b
  load g x0 toks := match toks with
    | .null :: r => .ok none r g
    | .cls n :: r => match alts.find? (fun a => a.name == n) with
      | none => .fail x0
      | some a => match a.ser.load (a.clicks g) a.new r with
        | .ok v r' g' => .ok (some (a.inj v)) r' g'
        | .fail _ => .fail x0
    | _ => .fail x0

/-! ## Structures -/

/-- `R3::Vector` (R3linalg.hpp:56-93). -/
structure V3 where
  x : Dbl
  y : Dbl
  z : Dbl
deriving DecidableEq, Repr, Inhabited

/-- `R3::Vector::serialize` (R3linalg.hpp:88-93), through the ublas base. -/
def sV3 : Ser V3 := cls 0 fun _ => seqs [fld(x, sDbl), fld(y, sDbl), fld(z, sDbl)]

/-- `R3::Matrix` (R3linalg.hpp:105-144). -/
structure M3 where
  r0 : V3
  r1 : V3
  r2 : V3
deriving DecidableEq, Repr, Inhabited

/-- `R3::Matrix::serialize` (R3linalg.hpp:139-144). -/
def sM3 : Ser M3 := cls 0 fun _ => seqs [fld(r0, sV3), fld(r1, sV3), fld(r2, sV3)]

/-- `Atom` (AtomicStructureAdapter.hpp:30-48). -/
structure Atom where
  atomtype : String
  xyz : V3
  occupancy : Dbl
  anisotropy : Bool
  uij : M3
deriving DecidableEq, Repr, Inhabited

/-- `Atom::serialize` (AtomicStructureAdapter.hpp:52-61). -/
def sAtom : Ser Atom := cls 0 fun _ =>
  seqs [fld(atomtype, sStr), fld(xyz, sV3), fld(occupancy, sDbl), fld(anisotropy, sBool), fld(uij, sM3)]

/-- `Lattice` (Lattice.hpp:143-167). -/
structure Latt where
  ma : Dbl
  mb : Dbl
  mc : Dbl
  malpha : Dbl
  mbeta : Dbl
  mgamma : Dbl
  mcosa : Dbl
  mcosb : Dbl
  mcosg : Dbl
  msina : Dbl
  msinb : Dbl
  msing : Dbl
  mva : V3
  mvb : V3
  mvc : V3
  mar : Dbl
  mbr : Dbl
  mcr : Dbl
  malphar : Dbl
  mbetar : Dbl
  mgammar : Dbl
  mcosar : Dbl
  mcosbr : Dbl
  mcosgr : Dbl
  msinar : Dbl
  msinbr : Dbl
  msingr : Dbl
  mvar : V3
  mvbr : V3
  mvcr : V3
  mmetrics : M3
  mbase : M3
  mstdbase : M3
  mbaserot : M3
  mrecbase : M3
  mnormbase : M3
  mrecnormbase : M3
deriving DecidableEq, Inhabited

/-- `Lattice::serialize` (Lattice.hpp:169-190). -/
def sLatt : Ser Latt := cls 0 fun _ =>
  seqs [fld(ma, sDbl), fld(mb, sDbl), fld(mc, sDbl),
    fld(malpha, sDbl), fld(mbeta, sDbl), fld(mgamma, sDbl),
    fld(mcosa, sDbl), fld(mcosb, sDbl), fld(mcosg, sDbl),
    fld(msina, sDbl), fld(msinb, sDbl), fld(msing, sDbl),
    fld(mva, sV3), fld(mvb, sV3), fld(mvc, sV3),
    fld(mar, sDbl), fld(mbr, sDbl), fld(mcr, sDbl),
    fld(malphar, sDbl), fld(mbetar, sDbl), fld(mgammar, sDbl),
    fld(mcosar, sDbl), fld(mcosbr, sDbl), fld(mcosgr, sDbl),
    fld(msinar, sDbl), fld(msinbr, sDbl), fld(msingr, sDbl),
    fld(mvar, sV3), fld(mvbr, sV3), fld(mvcr, sV3),
    fld(mmetrics, sM3), fld(mbase, sM3), fld(mstdbase, sM3), fld(mbaserot, sM3),
    fld(mrecbase, sM3), fld(mnormbase, sM3), fld(mrecnormbase, sM3)]

/-- `AtomicStructureAdapter` (AtomicStructureAdapter.hpp:136-139). -/
structure Atomic where
  matoms : List Atom
deriving DecidableEq, Inhabited

/-- `AtomicStructureAdapter::serialize` (AtomicStructureAdapter.hpp:149-155); the base `StructureAdapter` writes nothing
(StructureAdapter.hpp:102-104). -/
def sAtomic : Ser Atomic := cls 0 fun _ => seqs [cls 0 fun _ => nop, fld(matoms, vec default sAtom)]

/-- `PeriodicStructureAdapter` (PeriodicStructureAdapter.hpp:48-53). -/
structure Periodic where
  base : Atomic
  mlattice : Latt
deriving DecidableEq, Inhabited

/-- `PeriodicStructureAdapter::serialize` (PeriodicStructureAdapter.hpp:57-63). -/
def sPeriodic : Ser Periodic := cls 0 fun _ => seqs [fld(base, sAtomic), fld(mlattice, sLatt)]

/-- `SymOpRotTrans` (CrystalStructureAdapter.hpp:31-36). -/
structure SymOp where
  R : M3
  t : V3
deriving DecidableEq, Inhabited

/-- `SymOpRotTrans::serialize` (CrystalStructureAdapter.hpp:42-47). -/
def sSymOp : Ser SymOp := cls 0 fun _ => seqs [fld(R, sM3), fld(t, sV3)]

/-- `CrystalStructureAdapter` (CrystalStructureAdapter.hpp:96-103). -/
structure Crystal where
  base : Periodic
  msymops : List SymOp
  msymmetry_precision : Dbl
  msymatoms : List (List Atom)
  msymmetry_cached : Bool
deriving DecidableEq, Inhabited

/-- `CrystalStructureAdapter::serialize` (CrystalStructureAdapter.hpp:118-127). -/
def sCrystal : Ser Crystal := cls 0 fun _ =>
  seqs [fld(base, sPeriodic), fld(msymops, vec default sSymOp), fld(msymmetry_precision, sDbl),
    fld(msymatoms, vec default (vec default sAtom)), fld(msymmetry_cached, sBool)]

/-- `StructureAdapterPtr`: null or an object of one of the classes; `other` stands for classes without export (such as Python
subclasses). -/
inductive Stru
  | null
  | empty
  | atomic (s : Atomic)
  | periodic (s : Periodic)
  | crystal (s : Crystal)
  | nometa (src : Stru)
  | nosymmetry (src : Stru)
  | other
deriving DecidableEq

/-- `oa << pstru`: class name and content (AtomicStructureAdapter.cpp:309, PeriodicStructureAdapter.cpp:241,
CrystalStructureAdapter.cpp:370, EmptyStructureAdapter.cpp:105-111, :129, NoMetaStructureAdapter.hpp:65-71,
NoSymmetryStructureAdapter.hpp:67-73). -/
def saveStru (ga : Tick) : Stru → Option (List Tok)
  | .null => some [.null]
  | .empty => some [.cls "EmptyStructureAdapter"]
  | .atomic s => (sAtomic.save ga s).map (.cls "AtomicStructureAdapter" :: ·)
  | .periodic s => (sPeriodic.save ga s).map (.cls "PeriodicStructureAdapter" :: ·)
  | .crystal s => (sCrystal.save ga s).map (.cls "CrystalStructureAdapter" :: ·)
  | .nometa src => (saveStru ga src).map (.cls "NoMetaStructureAdapter" :: ·)
  | .nosymmetry src => (saveStru ga src).map (.cls "NoSymmetryStructureAdapter" :: ·)
  | .other => none

/-- Result of loading the content of a new object. -/
def wrap {α : Type} (f : α → Stru) (x0 : Stru) : Res α → Res Stru
  | .ok y r g => .ok (f y) r g
  | .fail _ => .fail x0

/-- `ia >> pstru`, `fuel` bounds the nesting of wrappers. -/
def loadStru : Nat → Tick → Stru → List Tok → Res Stru
  | 0, _, x0, _ => .fail x0
  | fuel + 1, g, x0, toks => match toks with
    | .null :: r => .ok .null r g
    | .cls n :: r =>
      if n = "EmptyStructureAdapter" then .ok .empty r g
      else if n = "AtomicStructureAdapter" then wrap .atomic x0 (sAtomic.load g default r)
      else if n = "PeriodicStructureAdapter" then wrap .periodic x0 (sPeriodic.load g default r)
      else if n = "CrystalStructureAdapter" then wrap .crystal x0 (sCrystal.load g default r)
      else if n = "NoMetaStructureAdapter" then wrap .nometa x0 (loadStru fuel g .null r)
      else if n = "NoSymmetryStructureAdapter" then wrap .nosymmetry x0 (loadStru fuel g .null r)
      else .fail x0
    | _ => .fail x0

/-- A `StructureAdapterPtr` in an archive.  The number of items bounds the nesting. -/
def sStru : Ser Stru where
  save := saveStru
  load g x0 toks := loadStru toks.length g x0 toks

/-! ## Components -/

/-- The settings of default constructed objects, and how their constructors advance the clock (GaussianProfile.cpp:33-39,
CroppedGaussianProfile.cpp:33-39).  The theorems hold for all of them. -/
structure News where
  dbl : String → Dbl
  clicks : String → Tick → Tick
  clicks_le : ∀ c ga g, Ticker.le ga g = true → Ticker.le ga (clicks c g) = true

/-- `PDFBaseline` objects (LinearBaseline.hpp:46-49, ZeroBaseline.hpp); `other` has no export. -/
inductive Baseline
  | zero
  | linear (slope : Dbl)
  | other
deriving DecidableEq

/-- `PDFBaselinePtr`: `ZeroBaseline::serialize`, `LinearBaseline::serialize` (ZeroBaseline.hpp:46-52, LinearBaseline.hpp:52-59);
`PDFBaseline` writes nothing (PDFBaseline.hpp:50-53). -/
def sBaseline (nw : News) : Ser (Option Baseline) := ptr
  [⟨Unit, "ZeroBaseline", cls 0 fun _ => nop, (), id, fun _ => .zero, fun | .zero => some () | _ => none⟩,
   ⟨Dbl, "LinearBaseline", cls 0 fun _ => seqs [nop, sDbl], nw.dbl "LinearBaseline", id, .linear,
     fun | .linear s => some s | _ => none⟩]

/-- `PDFEnvelope` objects (ScaleEnvelope.hpp:46-49, QResolutionEnvelope.hpp:46-49, SphericalShapeEnvelope.hpp:48-51,
StepCutEnvelope.hpp:48-51). -/
inductive Envelope
  | scale (x : Dbl)
  | qresolution (x : Dbl)
  | spherical (x : Dbl)
  | stepcut (x : Dbl)
  | other
deriving DecidableEq

/-- `PDFEnvelopePtr`: `serialize` of the four classes (ScaleEnvelope.hpp:52-59, QResolutionEnvelope.hpp:52-59,
SphericalShapeEnvelope.hpp:54-61, StepCutEnvelope.hpp:54-61); `PDFEnvelope` writes nothing (PDFEnvelope.hpp:56-60). -/
def sEnvelope (nw : News) : Ser (Option Envelope) := ptr
  [⟨Dbl, "ScaleEnvelope", cls 0 fun _ => seqs [nop, sDbl], nw.dbl "ScaleEnvelope", id, .scale,
     fun | .scale s => some s | _ => none⟩,
   ⟨Dbl, "QResolutionEnvelope", cls 0 fun _ => seqs [nop, sDbl], nw.dbl "QResolutionEnvelope", id, .qresolution,
     fun | .qresolution s => some s | _ => none⟩,
   ⟨Dbl, "SphericalShapeEnvelope", cls 0 fun _ => seqs [nop, sDbl], nw.dbl "SphericalShapeEnvelope", id, .spherical,
     fun | .spherical s => some s | _ => none⟩,
   ⟨Dbl, "StepCutEnvelope", cls 0 fun _ => seqs [nop, sDbl], nw.dbl "StepCutEnvelope", id, .stepcut,
     fun | .stepcut s => some s | _ => none⟩]

/-- `PDFEnvelopeOwner::menvelope` (PDFEnvelope.hpp:92-96). -/
abbrev EnvelopeOwner := FMap String (Option Envelope)

/-- `PDFEnvelopeOwner::serialize` (PDFEnvelope.hpp:98-105). -/
def sEnvelopeOwner (it : Orders) (nw : News) : Ser EnvelopeOwner :=
  cls 0 fun _ => seqs [assoc it ("", none) (sPair sStr (sEnvelope nw))]

/-- `PeakProfile` with `GaussianProfile` members (PeakProfile.hpp:55-63, GaussianProfile.hpp:44-47). -/
structure Gauss where
  mticker : Tick
  mprecision : Dbl
  mhalfboundrel : Dbl
deriving DecidableEq

/-- `PeakProfile::serialize`, `GaussianProfile::serialize` (PeakProfile.hpp:65-71, GaussianProfile.hpp:53-60). -/
def sGauss : Ser Gauss := cls 0 fun _ =>
  seqs [cls 0 fun _ => seqs [fld(mticker, sTick), fld(mprecision, sDbl)], fld(mhalfboundrel, sDbl)]

/-- `CroppedGaussianProfile` (CroppedGaussianProfile.hpp:43-46). -/
structure Cropped where
  base : Gauss
  mscale : Dbl
deriving DecidableEq

/-- `CroppedGaussianProfile::serialize` (CroppedGaussianProfile.hpp:50-57). -/
def sCropped : Ser Cropped := cls 0 fun _ => seqs [fld(base, sGauss), fld(mscale, sDbl)]

/-- `PeakProfile` objects. -/
inductive Profile
  | gaussian (p : Gauss)
  | cropped (p : Cropped)
  | other
deriving DecidableEq

/-- `PeakProfilePtr` (GaussianProfile.cpp:105, CroppedGaussianProfile.cpp:96). -/
def sProfile (nw : News) : Ser (Option Profile) := ptr
  [⟨Gauss, "GaussianProfile", sGauss, ⟨(0, 0), nw.dbl "eps", nw.dbl "halfbound"⟩, nw.clicks "GaussianProfile", .gaussian,
     fun | .gaussian p => some p | _ => none⟩,
   ⟨Cropped, "CroppedGaussianProfile", sCropped, ⟨⟨(0, 0), nw.dbl "eps", nw.dbl "halfbound"⟩, nw.dbl "scale"⟩,
     nw.clicks "CroppedGaussianProfile", .cropped, fun | .cropped p => some p | _ => none⟩]

/-- `ConstantPeakWidth` (ConstantPeakWidth.hpp:48-50, PeakWidthModel.hpp:53-56). -/
structure ConstWidth where
  mticker : Tick
  mwidth : Dbl
deriving DecidableEq

/-- `JeongPeakWidth` (JeongPeakWidth.hpp:56-61). -/
structure Jeong where
  mticker : Tick
  mdelta1 : Dbl
  mdelta2 : Dbl
  mqbroad : Dbl
  mqbroad_seperable : Dbl
deriving DecidableEq

/-- `PeakWidthModel` objects. -/
inductive Width
  | constant (w : ConstWidth)
  | debyeWaller (mticker : Tick)
  | jeong (w : Jeong)
  | other
deriving DecidableEq

/-- `ConstantPeakWidth::serialize` with the base (ConstantPeakWidth.hpp:54-61, PeakWidthModel.hpp:60-66). -/
def sConstWidth : Ser ConstWidth := cls 0 fun _ => seqs [cls 0 fun _ => seqs [fld(mticker, sTick)], fld(mwidth, sDbl)]

/-- `JeongPeakWidth::serialize` with the bases (JeongPeakWidth.hpp:68-78, DebyeWallerPeakWidth.hpp:47-53). -/
def sJeong : Ser Jeong := cls 0 fun _ =>
  seqs [cls 0 fun _ => seqs [cls 0 fun _ => seqs [fld(mticker, sTick)]], fld(mdelta1, sDbl), fld(mdelta2, sDbl),
    fld(mqbroad, sDbl), fld(mqbroad_seperable, sDbl)]

/-- `PeakWidthModelPtr` (ConstantPeakWidth.cpp:134, DebyeWallerPeakWidth.cpp:81, JeongPeakWidth.cpp:165). -/
def sWidth (nw : News) : Ser (Option Width) := ptr
  [⟨ConstWidth, "ConstantPeakWidth", sConstWidth, ⟨(0, 0), nw.dbl "width"⟩, nw.clicks "ConstantPeakWidth", .constant,
     fun | .constant w => some w | _ => none⟩,
   ⟨Tick, "DebyeWallerPeakWidth", cls 0 fun _ => seqs [cls 0 fun _ => seqs [sTick]], (0, 0),
     nw.clicks "DebyeWallerPeakWidth", .debyeWaller, fun | .debyeWaller t => some t | _ => none⟩,
   ⟨Jeong, "JeongPeakWidth", sJeong, ⟨(0, 0), nw.dbl "delta1", nw.dbl "delta2", nw.dbl "qbroad", nw.dbl "qbroadsep"⟩,
     nw.clicks "JeongPeakWidth", .jeong, fun | .jeong w => some w | _ => none⟩]

/-- `PeakWidthModelOwner` (PeakWidthModel.hpp:85-89). -/
structure WidthOwner where
  mpwmodel : Option Width
  mprivateticker : Tick
deriving DecidableEq

/-- `PeakWidthModelOwner::serialize` (PeakWidthModel.hpp:92-98). -/
def sWidthOwner (nw : News) : Ser WidthOwner := cls 0 fun _ => seqs [fld(mpwmodel, sWidth nw), fld(mprivateticker, sTick)]

/-- Scattering factor tables with an exported class (SFTXray.hpp:62, SFTElectron.hpp:65, SFTNeutron.hpp:63,
SFTElectronNumber.hpp:63), and others. -/
inductive SftKind | xray | electron | neutron | electronNumber | other
deriving DecidableEq

/-- `ScatteringFactorTable` (ScatteringFactorTable.hpp:62-66). -/
structure SfTable where
  mcustom : FMap String (String × Dbl)
  mticker : Tick

/-- `ScatteringFactorTable::serialize` (ScatteringFactorTable.hpp:70-76) as the base of an exported class (SFTXray.hpp:46-52,
SFTElectron.hpp:49-55, SFTNeutron.hpp:47-53, SFTElectronNumber.hpp:47-53). -/
def sSfTable (it : Orders) : Ser SfTable := cls 0 fun _ =>
  seqs [cls 0 fun _ => seqs [fld(mcustom, assoc it ("", ("", 0)) (sPair sStr (sPair sStr sDbl))), fld(mticker, sTick)]]

/-- One exported class of scattering factor tables. -/
def sftAlt (it : Orders) (nw : News) (k : SftKind) (name : String) : Alt (SftKind × SfTable) :=
  ⟨SfTable, name, sSfTable it, ⟨.empty, (0, 0)⟩, nw.clicks name, fun t => (k, t), fun o => if o.1 = k then some o.2 else none⟩

/-- `ScatteringFactorTablePtr` (SFTXray.cpp:78, SFTElectron.cpp:79, SFTNeutron.cpp:79, SFTElectronNumber.cpp:78). -/
def sSft (it : Orders) (nw : News) : Ser (Option (SftKind × SfTable)) := ptr
  [sftAlt it nw .xray "SFTXray", sftAlt it nw .electron "SFTElectron", sftAlt it nw .neutron "SFTNeutron",
    sftAlt it nw .electronNumber "SFTElectronNumber"]

/-- `ScatteringFactorTableOwner` (ScatteringFactorTable.hpp:94-98). -/
structure SftOwner where
  msftable : Option (SftKind × SfTable)
  mprivateticker : Tick

/-- `ScatteringFactorTableOwner::serialize` (ScatteringFactorTable.hpp:100-106). -/
def sSftOwner (it : Orders) (nw : News) : Ser SftOwner :=
  cls 0 fun _ => seqs [fld(msftable, sSft it nw), fld(mprivateticker, sTick)]

/-- `ConstantRadiiTable` with its base (AtomRadiiTable.hpp:64-67, ConstantRadiiTable.hpp:44-47). -/
structure ConstRadii where
  mcustomradius : FMap String Dbl
  mdefaultradius : Dbl

/-- Radii tables. -/
inductive Radii
  | constant (t : ConstRadii)
  | other

/-- `AtomRadiiTable::serialize`, `ConstantRadiiTable::serialize` (AtomRadiiTable.hpp:69-75, ConstantRadiiTable.hpp:50-57). -/
def sConstRadii (it : Orders) : Ser ConstRadii := cls 0 fun _ =>
  seqs [cls 0 fun _ => seqs [fld(mcustomradius, assoc it ("", 0) (sPair sStr sDbl))], fld(mdefaultradius, sDbl)]

/-- `AtomRadiiTablePtr` (ConstantRadiiTable.cpp:91). -/
def sRadii (it : Orders) (nw : News) : Ser (Option Radii) := ptr
  [⟨ConstRadii, "ConstantRadiiTable", sConstRadii it, ⟨.empty, nw.dbl "radius"⟩, id, .constant,
     fun | .constant t => some t | _ => none⟩]

/-- Key of a parameter in `SetOfBVParam`: atoms and valences (BVParam.hpp:58-70, BVParam.cpp:124-132). -/
structure BVKey where
  matom0 : String
  mvalence0 : Int
  matom1 : String
  mvalence1 : Int
deriving DecidableEq

/-- The other members of `BVParam` (BVParam.hpp:54-56). -/
structure BVData where
  mRo : Dbl
  mB : Dbl
  mref_id : String
deriving DecidableEq

/-- `BVParam::serialize` (BVParam.hpp:75-86); the object as key and data. -/
def sBVParam : Ser (BVKey × BVData) := cls 0 fun _ =>
  seqs [memb (fun x => x.1.matom0) (fun x v => ({ x.1 with matom0 := v }, x.2)) sStr,
    memb (fun x => x.1.mvalence0) (fun x v => ({ x.1 with mvalence0 := v }, x.2)) sInt,
    memb (fun x => x.1.matom1) (fun x v => ({ x.1 with matom1 := v }, x.2)) sStr,
    memb (fun x => x.1.mvalence1) (fun x v => ({ x.1 with mvalence1 := v }, x.2)) sInt,
    memb (fun x => x.2.mRo) (fun x v => (x.1, { x.2 with mRo := v })) sDbl,
    memb (fun x => x.2.mB) (fun x v => (x.1, { x.2 with mB := v })) sDbl,
    memb (fun x => x.2.mref_id) (fun x v => (x.1, { x.2 with mref_id := v })) sStr]

/-- `BVParametersTable` (BVParametersTable.hpp:72-74). -/
structure BVTable where
  mcustomtable : FMap BVKey BVData
  matomvalence : FMap String Int

/-- The body of `BVParametersTable::serialize` for an archived version (BVParametersTable.hpp:80-88). -/
def bvTableBody (it : Orders) (version : Nat) : Ser BVTable :=
  seqs [fld(mcustomtable, assoc it (⟨"", 0, "", 0⟩, ⟨0, 0, ""⟩) sBVParam),
    if version ≥ 1 then fld(matomvalence, assoc it ("", 0) (sPair sStr sInt)) else nop]

/-- `BVParametersTable`, class version 1 (BVParametersTable.hpp:97). -/
def sBVTable (it : Orders) : Ser BVTable := cls 1 (bvTableBody it)

/-- `BVParametersTablePtr`, the class is not polymorphic (BVParametersTable.cpp:202). -/
def sBVTablePtr (it : Orders) : Ser (Option BVTable) := ptr
  [⟨BVTable, "BVParametersTable", sBVTable it, ⟨.empty, .empty⟩, id, id, some⟩]

/-! ## Evaluators and calculators -/

/-- `PQEvaluatorType` (PQEvaluator.hpp:45). -/
inductive EvType | none | basic | optimized | check
deriving DecidableEq

/-- `PQEvaluatorBasic` (PQEvaluator.hpp:76-88). -/
structure EvBasic where
  mconfigflags : Int
  mcpuindex : Int
  mncpu : Int
  mvalue_ticker : Tick
  mtypeused : EvType
deriving DecidableEq

/-- `PQEvaluatorBasic::serialize` (PQEvaluator.hpp:92-97): `mtypeused` is not archived. -/
def sEvBasic : Ser EvBasic := cls 0 fun _ =>
  seqs [fld(mconfigflags, sInt), fld(mcpuindex, sInt), fld(mncpu, sInt), fld(mvalue_ticker, sTick)]

/-- `PQEvaluatorOptimized` (PQEvaluator.hpp:110-113). -/
structure EvOptimized where
  base : EvBasic
  mlast_structure : Stru
deriving DecidableEq

/-- `PQEvaluatorOptimized::serialize` (PQEvaluator.hpp:119-126). -/
def sEvOptimized : Ser EvOptimized := cls 0 fun _ => seqs [fld(base, sEvBasic), fld(mlast_structure, sStru)]

/-- Evaluators; `PQEvaluatorCheck` has a `serialize` (PQEvaluator.hpp:141-147) but no export (PQEvaluator.hpp:160-162). -/
inductive Evaluator
  | basic (e : EvBasic)
  | optimized (e : EvOptimized)
  | check (e : EvOptimized)
deriving DecidableEq

/-- A new evaluator (PQEvaluator.cpp:72-75). -/
def newEvBasic : EvBasic := ⟨0, 0, 1, (0, 0), .none⟩

/-- `PQEvaluatorPtr` (PQEvaluator.cpp:471-474). -/
def sEvaluator : Ser (Option Evaluator) := ptr
  [⟨EvBasic, "PQEvaluatorBasic", sEvBasic, newEvBasic, id, .basic, fun | .basic e => some e | _ => none⟩,
   ⟨EvOptimized, "PQEvaluatorOptimized", sEvOptimized, ⟨newEvBasic, .null⟩, id, .optimized,
     fun | .optimized e => some e | _ => none⟩]

/-- `PairQuantity` (PairQuantity.hpp:105-124). -/
structure PQ where
  mvalue : List Dbl
  mstructure : Stru
  mrmin : Dbl
  mrmax : Dbl
  mevaluator : Option Evaluator
  mdefaultpairmask : Bool
  minvertpairmask : FMap (Int × Int) Unit
  msiteallmask : FMap Int Bool
  mtypemask : FMap (String × String) Bool
  mmergedvaluescount : Int
  mticker : Tick

/-- `QuantityType::serialize` (QuantityType.hpp:51-56). -/
def sQuantity : Ser (List Dbl) := cls 0 fun _ => seqs [vec 0 sDbl]

/-- Members of an element of a set. -/
def sUnit {α : Type} (s : Ser α) : Ser (α × Unit) := seqs [memb (fun x => x.1) (fun x v => (v, x.2)) s]

/-- `PairQuantity::serialize` (PairQuantity.hpp:132-148). -/
def sPQ (it : Orders) : Ser PQ := cls 0 fun _ =>
  seqs [fld(mvalue, sQuantity), fld(mstructure, sStru), fld(mrmin, sDbl), fld(mrmax, sDbl), fld(mevaluator, sEvaluator),
    fld(mdefaultpairmask, sBool), fld(minvertpairmask, assoc it ((0, 0), ()) (sUnit (sPair sInt sInt))),
    fld(msiteallmask, assoc it (0, false) (sPair sInt sBool)),
    fld(mtypemask, assoc it (("", ""), false) (sPair (sPair sStr sStr) sBool)),
    fld(mmergedvaluescount, sInt), fld(mticker, sTick)]

/-- `PDFCalculator` (PDFCalculator.hpp:155-180). -/
structure Pdf where
  pq : PQ
  pwo : WidthOwner
  sfo : SftOwner
  peo : EnvelopeOwner
  mqmin : Dbl
  mqmax : Dbl
  mrstep : Dbl
  mmaxextension : Dbl
  mpeakprofile : Option Profile
  mbaseline : Option Baseline
  sfsite : List Dbl
  sfaverage : Dbl
  totaloccupancy : Dbl
  activeoccupancy : Dbl
  extendedrminsteps : Int
  extendedrmaxsteps : Int
  rcalclosteps : Int
  rcalchisteps : Int
  stashedvalue : List Dbl
  stashedrclosteps : Int

/-- `PDFCalculator::serialize` (PDFCalculator.hpp:181-204): the stashed value is not archived. -/
def sPdf (it : Orders) (nw : News) : Ser Pdf := cls 0 fun _ =>
  seqs [fld(pq, sPQ it), fld(pwo, sWidthOwner nw), fld(sfo, sSftOwner it nw), fld(peo, sEnvelopeOwner it nw),
    fld(mqmin, sDbl), fld(mqmax, sDbl), fld(mrstep, sDbl), fld(mmaxextension, sDbl),
    fld(mpeakprofile, sProfile nw), fld(mbaseline, sBaseline nw),
    fld(sfsite, vec 0 sDbl), fld(sfaverage, sDbl), fld(totaloccupancy, sDbl), fld(activeoccupancy, sDbl),
    fld(extendedrminsteps, sInt), fld(extendedrmaxsteps, sInt), fld(rcalclosteps, sInt), fld(rcalchisteps, sInt)]

/-- `BaseDebyeSum` (BaseDebyeSum.hpp:80-93). -/
structure DebyeSum where
  pq : PQ
  pwo : WidthOwner
  mqmin : Dbl
  mqmax : Dbl
  mqstep : Dbl
  mdebyeprecision : Dbl
  typeofsite : List Int
  sftypeatkq : List (List Dbl)
  sfaverageatkq : List Dbl
  totaloccupancy : Dbl
  mdbsumstash : List Dbl

/-- `BaseDebyeSum::serialize` (BaseDebyeSum.hpp:96-112). -/
def sDebyeSum (it : Orders) (nw : News) : Ser DebyeSum := cls 0 fun _ =>
  seqs [fld(pq, sPQ it), fld(pwo, sWidthOwner nw), fld(mqmin, sDbl), fld(mqmax, sDbl), fld(mqstep, sDbl),
    fld(mdebyeprecision, sDbl), fld(typeofsite, vec 0 sInt), fld(sftypeatkq, vec [] sQuantity),
    fld(sfaverageatkq, sQuantity), fld(totaloccupancy, sDbl)]

/-- `DebyePDFCalculator` (DebyePDFCalculator.hpp:125-131). -/
structure DebyePdf where
  base : DebyeSum
  sfo : SftOwner
  peo : EnvelopeOwner
  mqminpdf : Dbl
  moptimumqstep : Bool
  mrstep : Dbl
  mmaxextension : Dbl
  mrcalclosteps : Int
  mrcalchisteps : Int
  mrlimits_are_cached : Bool

/-- The body of `DebyePDFCalculator::serialize` (DebyePDFCalculator.hpp:134-152). -/
def debyePdfBody (it : Orders) (nw : News) (version : Nat) : Ser DebyePdf :=
  seqs [fld(base, sDebyeSum it nw), fld(sfo, sSftOwner it nw), fld(peo, sEnvelopeOwner it nw), fld(mqminpdf, sDbl),
    fld(moptimumqstep, sBool), fld(mrstep, sDbl), fld(mmaxextension, sDbl), fld(mrcalclosteps, sInt), fld(mrcalchisteps, sInt),
    if version ≥ 1 then fld(mrlimits_are_cached, sBool) else nop]

/-- `DebyePDFCalculator`, class version 1 (DebyePDFCalculator.hpp:161). -/
def sDebyePdf (it : Orders) (nw : News) : Ser DebyePdf := cls 1 (debyePdfBody it nw)

/-- `BondCalculator::BondEntry` (BondCalculator.hpp:62-70). -/
structure BondEntry where
  distance : Dbl
  site0 : Int
  site1 : Int
  direction0 : Dbl
  direction1 : Dbl
  direction2 : Dbl
deriving DecidableEq, Inhabited

/-- `BondEntry::serialize` (BondCalculator.hpp:72-80). -/
def sBondEntry : Ser BondEntry := cls 0 fun _ =>
  seqs [fld(distance, sDbl), fld(site0, sInt), fld(site1, sInt), fld(direction0, sDbl), fld(direction1, sDbl),
    fld(direction2, sDbl)]

/-- `BondCalculator` (BondCalculator.hpp:104-115). -/
structure Bonds where
  pq : PQ
  mfilter_directions : List V3
  mfilter_degrees : List Dbl
  mbonds : List BondEntry
  mpopbonds : List BondEntry
  maddbonds : List BondEntry
  stashedbonds : List BondEntry
  stashedpopbonds : List BondEntry

/-- `BondCalculator::serialize` (BondCalculator.hpp:88-98). -/
def sBonds (it : Orders) : Ser Bonds := cls 0 fun _ =>
  seqs [fld(pq, sPQ it), fld(mbonds, vec default sBondEntry), fld(mfilter_directions, vec default sV3),
    fld(mfilter_degrees, vec 0 sDbl)]

/-- `BVSCalculator` (BVSCalculator.hpp:73-82). -/
structure Bvs where
  pq : PQ
  mbvptable : Option BVTable
  mvalenceprecision : Dbl
  baresymbols : List String
  valences : List Int

/-- `BVSCalculator::serialize` (BVSCalculator.hpp:84-95). -/
def sBvs (it : Orders) : Ser Bvs := cls 0 fun _ =>
  seqs [fld(pq, sPQ it), fld(mbvptable, sBVTablePtr it), fld(mvalenceprecision, sDbl), fld(baresymbols, vec "" sStr),
    fld(valences, vec 0 sInt)]

/-- `OverlapCalculator` (OverlapCalculator.hpp:108-117). -/
structure Overlap where
  pq : PQ
  matomradiitable : Option Radii
  mneighborids : FMap Int (List Int)
  mneighborids_cached : Bool
  siteradii : List Dbl
  maxseparation : Dbl

/-- `OverlapCalculator::serialize` (OverlapCalculator.hpp:119-130): `mneighborids_cached` is not archived. -/
def sOverlap (it : Orders) (nw : News) : Ser Overlap := cls 0 fun _ =>
  seqs [fld(pq, sPQ it), fld(matomradiitable, sRadii it nw), fld(mneighborids, assoc it (0, []) (sPair sInt (vec 0 sInt))),
    fld(siteradii, sQuantity), fld(maxseparation, sDbl)]

/-- `replacePairQuantityStructure` (PairQuantity.cpp:496-502): the calculator with the new structure, and the old structure. -/
def replaceStructure (pq : PQ) (stru : Stru) : PQ × Stru := ({ pq with mstructure := stru }, pq.mstructure)

end Verif.Archive
