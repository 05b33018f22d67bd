import Verif.Model.Lattice
/-
Functions that return references to static objects (src/diffpy/srreal/R3linalg.hpp, R3linalg.cpp, Lattice.cpp, Lattice.hpp,
PDFCalculator.cpp) and functions that read their arguments through references while they write.  A `Buf` is the address of an
`R3::Vector`; the memory gives the content of each.  The value-level functions of C30-C33 are in Model/R3 and Model/Lattice.
-/
namespace Verif.Buffers
open Verif.R3 Verif.Lattice

/-- Addresses of vectors: the static objects of `R3::mxvecproduct` for the two argument orders (R3linalg.hpp:252, :263),
`R3::floor` (R3linalg.hpp:204), `R3::distance` (R3linalg.hpp:223), `Lattice::distance` (Lattice.hpp:492), `Lattice::cartesian`,
`fractional`, `ucvCartesian`, `ucvFractional` (Lattice.cpp:189, :196, :203, :211), the copies of the templates for other vector types
(Lattice.hpp:520, :531, :542, :553) and the variables of the caller. -/
inductive Buf
  | mxRight | mxLeft | floor | duv | latDuv | cart | frac | ucart | ufrac
  | copy (k : Nat)
  | var (n : Nat)
  deriving DecidableEq

/-- Content of all vectors. -/
abbrev Mem := Buf → V3

/-- Assignment to a vector as a whole. -/
def Mem.set (m : Mem) (b : Buf) (v : V3) : Mem := fun b' => if b' = b then v else m b'

/-- `R3::mxvecproduct(const Matrix& M, const V& u)` (R3linalg.hpp:249-257): the components of the static result are assigned one
after the other while `u` is read through the reference. -/
def mxRight (M : M3) (u : Buf) (m : Mem) : Mem × Buf :=
  let m := m.set .mxRight ⟨V3.dot M.r0 (m u), (m .mxRight).y, (m .mxRight).z⟩
  let m := m.set .mxRight ⟨(m .mxRight).x, V3.dot M.r1 (m u), (m .mxRight).z⟩
  let m := m.set .mxRight ⟨(m .mxRight).x, (m .mxRight).y, V3.dot M.r2 (m u)⟩
  (m, .mxRight)

/-- `R3::mxvecproduct(const V& u, const Matrix& M)` (R3linalg.hpp:260-268). -/
def mxLeft (u : Buf) (M : M3) (m : Mem) : Mem × Buf :=
  let m := m.set .mxLeft ⟨V3.dot (m u) M.c0, (m .mxLeft).y, (m .mxLeft).z⟩
  let m := m.set .mxLeft ⟨(m .mxLeft).x, V3.dot (m u) M.c1, (m .mxLeft).z⟩
  let m := m.set .mxLeft ⟨(m .mxLeft).x, (m .mxLeft).y, V3.dot (m u) M.c2⟩
  (m, .mxLeft)

/-- `R3::floor` (R3linalg.hpp:201-209). -/
noncomputable def floorB (v : Buf) (m : Mem) : Mem × Buf :=
  let m := m.set .floor ⟨(⌊(m v).x⌋ : ℝ), (m .floor).y, (m .floor).z⟩
  let m := m.set .floor ⟨(m .floor).x, (⌊(m v).y⌋ : ℝ), (m .floor).z⟩
  let m := m.set .floor ⟨(m .floor).x, (m .floor).y, (⌊(m v).z⌋ : ℝ)⟩
  (m, .floor)

/-- `Lattice::cartesian` (Lattice.cpp:187-192). -/
def cartesianB (L : Lat) (lv : Buf) (m : Mem) : Mem × Buf :=
  let (m, r) := mxLeft lv L.base m
  (m.set .cart (m r), .cart)

/-- `Lattice::fractional` (Lattice.cpp:194-199). -/
def fractionalB (L : Lat) (cv : Buf) (m : Mem) : Mem × Buf :=
  let (m, r) := mxLeft cv L.recbase m
  (m.set .frac (m r), .frac)

/-- `Lattice::ucvFractional` (Lattice.cpp:208-217); the assignment of a ublas expression evaluates it completely before the target
changes. -/
noncomputable def ucvFractionalB (lv : Buf) (m : Mem) : Mem × Buf :=
  let (m, f) := floorB lv m
  let m := m.set .ufrac (V3.sub (m lv) (m f))
  let m := m.set .ufrac ⟨snap (m .ufrac).x, (m .ufrac).y, (m .ufrac).z⟩
  let m := m.set .ufrac ⟨(m .ufrac).x, snap (m .ufrac).y, (m .ufrac).z⟩
  let m := m.set .ufrac ⟨(m .ufrac).x, (m .ufrac).y, snap (m .ufrac).z⟩
  (m, .ufrac)

/-- `Lattice::ucvCartesian` (Lattice.cpp:201-206). -/
noncomputable def ucvCartesianB (L : Lat) (cv : Buf) (m : Mem) : Mem × Buf :=
  let (m, r) := fractionalB L cv m
  let (m, r) := ucvFractionalB r m
  let (m, r) := cartesianB L r m
  (m.set .ucart (m r), .ucart)

/-- The lattice functions of one vector argument, which return a reference (Lattice.cpp:187-217). -/
inductive LFn
  | cartesian (L : Lat) | fractional (L : Lat) | ucvCartesian (L : Lat) | ucvFractional

/-- A call with the argument passed by reference (Lattice.cpp:187-217). -/
noncomputable def LFn.call : LFn → Buf → Mem → Mem × Buf
  | .cartesian L, a, m => cartesianB L a m
  | .fractional L, a, m => fractionalB L a m
  | .ucvCartesian L, a, m => ucvCartesianB L a m
  | .ucvFractional, a, m => ucvFractionalB a m

/-- The static copy used by the template of each function (Lattice.hpp:520, :531, :542, :553). -/
def LFn.copyBuf : LFn → Buf
  | .cartesian _ => .copy 0
  | .fractional _ => .copy 1
  | .ucvCartesian _ => .copy 2
  | .ucvFractional => .copy 3

/-- The templates for other vector types (Lattice.hpp:517-561): the argument, here held in variable `n`, is copied component by
component to a static vector. -/
noncomputable def LFn.callOther (f : LFn) (n : Nat) (m : Mem) : Mem × Buf :=
  let c := f.copyBuf
  let m := m.set c ⟨(m (.var n)).x, (m c).y, (m c).z⟩
  let m := m.set c ⟨(m c).x, (m (.var n)).y, (m c).z⟩
  let m := m.set c ⟨(m c).x, (m c).y, (m (.var n)).z⟩
  f.call c m

/-- The functions of one vector argument that return a reference (R3linalg.hpp:201-268, Lattice.cpp:187-217). -/
inductive Fn
  | mulRight (M : M3) | mulLeft (M : M3) | floor | lat (f : LFn)

/-- A call with the argument passed by reference (R3linalg.hpp:201-268, Lattice.cpp:187-217). -/
noncomputable def Fn.call : Fn → Buf → Mem → Mem × Buf
  | .mulRight M, a, m => mxRight M a m
  | .mulLeft M, a, m => mxLeft a M m
  | .floor, a, m => floorB a m
  | .lat f, a, m => f.call a m

/-- Expressions of nested calls: a variable, a call on the reference that another expression returned, and a call of a lattice
template for an argument of another vector type (Lattice.hpp:517-561). -/
inductive Expr
  | var (n : Nat)
  | app (f : Fn) (e : Expr)
  | appOther (f : LFn) (n : Nat)

/-- Evaluation of nested calls as the compiled program does it. -/
noncomputable def Expr.eval : Expr → Mem → Mem × Buf
  | .var n, m => (m, .var n)
  | .app f e, m => let r := e.eval m; f.call r.2 r.1
  | .appOther f n, m => f.callOther n m

/-- `R3::distance(u, v)` with two references (R3linalg.hpp:220-228); the number and the memory afterwards. -/
noncomputable def distanceB (u v : Buf) (m : Mem) : Mem × ℝ :=
  let m := m.set .duv (V3.sub (m u) (m v))
  (m, V3.norm (m .duv))

/-- `Lattice::distance(u, v)` with two references (Lattice.hpp:489-497). -/
noncomputable def latDistanceB (L : Lat) (u v : Buf) (m : Mem) : Mem × ℝ :=
  let m := m.set .latDuv (V3.sub (m u) (m v))
  (m, L.norm (m .latDuv))

/-- A statement of a calling program: a vector variable is assigned the result of an expression, i.e. copied (as in
PeriodicStructureAdapter.cpp:95, :103, :147, :201, CrystalStructureAdapter.cpp:170, ObjCrystStructureAdapter.cpp:159). -/
structure Assign where
  target : Nat
  rhs : Expr

/-- Execution of one assignment. -/
noncomputable def Assign.exec (a : Assign) (m : Mem) : Mem :=
  let r := a.rhs.eval m
  r.1.set (.var a.target) (r.1 r.2)

/-! ### `Lattice::setLatBase` on references -/

/-- A lattice with the stored cell vectors `mva`, `mvb`, `mvc` (Lattice.hpp:147), to which `va()`, `vb()`, `vc()` return references
(Lattice.hpp:294-312). -/
structure LatObj where
  lat : Lat
  va : V3
  vb : V3
  vc : V3

/-- An argument of `setLatBase`: another vector, or a reference to one of the own cell vectors. -/
inductive Arg
  | ext (v : V3) | va | vb | vc

/-- Reading through the reference (Lattice.hpp:294-312). -/
def Arg.read : Arg → LatObj → V3
  | .ext v, _ => v
  | .va, o => o.va
  | .vb, o => o.vb
  | .vc, o => o.vc

/-- `Lattice::setLatBase(const R3::Vector&, ...)` (Lattice.cpp:104-167) with the assignments `mva = va0; mvb = vb0; mvc = vc0`
(Lattice.cpp:121-123) in order; everything after reads the members. -/
noncomputable def setLatBaseRef (o : LatObj) (va0 vb0 vc0 : Arg) : LatObj × Bool :=
  let L0 : Lat := { o.lat with base := ⟨va0.read o, vb0.read o, vc0.read o⟩ }
  let d := M3.det L0.base
  if |d| < 1 / 10 ^ 8 then ({ o with lat := L0 }, false)
  else if d < 0 then ({ o with lat := L0 }, false)
  else
    let o : LatObj := { o with lat := L0 }
    let o : LatObj := { o with va := va0.read o }
    let o : LatObj := { o with vb := vb0.read o }
    let o : LatObj := { o with vc := vc0.read o }
    let a := V3.norm o.va
    let b := V3.norm o.vb
    let c := V3.norm o.vc
    let ca := V3.dot o.vb o.vc / (b * c)
    let cb := V3.dot o.va o.vc / (a * c)
    let cg := V3.dot o.va o.vb / (a * b)
    let L1 : Lat := { L0 with
      a := a, b := b, c := c, ca := ca, cb := cb, cg := cg,
      sa := Real.sqrt (1 - ca * ca), sb := Real.sqrt (1 - cb * cb),
      sg := Real.sqrt (1 - cg * cg),
      alpha := MathUtils.acosd ca, beta := MathUtils.acosd cb, gamma := MathUtils.acosd cg }
    let L2 := L1.updateReciprocal.updateStandardBase
    let L3 : Lat := { L2 with baserot := M3.mul (M3.inverse L2.stdbase) L2.base }
    ({ o with lat := L3.updateRecNorm.updateMetrics }, true)

/-! ### Matrices -/

/-- Addresses of matrices: the static objects of `cartesianMatrix` (Lattice.cpp:221), `fractionalMatrix` (Lattice.cpp:229) and
`R3::inverse` (R3linalg.cpp:64) and the variables of the caller. -/
inductive MBuf
  | cart0 | cart1 | frac0 | frac1 | inv
  | var (n : Nat)
  deriving DecidableEq

/-- Content of all matrices. -/
abbrev MMem := MBuf → M3

/-- Assignment of a matrix expression, evaluated completely before the target changes. -/
def MMem.set (m : MMem) (b : MBuf) (v : M3) : MMem := fun b' => if b' = b then v else m b'

/-- The matrix functions that return references. -/
inductive MFn
  | cartesianMatrix (L : Lat) | fractionalMatrix (L : Lat) | inverse

/-- `Lattice::cartesianMatrix`, `Lattice::fractionalMatrix` (Lattice.cpp:219-233) and `R3::inverse` (R3linalg.cpp:62-85), whose
argument is copied to a GSL matrix before the static result is written. -/
noncomputable def MFn.call : MFn → MBuf → MMem → MMem × MBuf
  | .cartesianMatrix L, a, m =>
    let m := m.set .cart0 (M3.mul (m a) L.normbase)
    let m := m.set .cart1 (M3.mul (M3.trans L.normbase) (m .cart0))
    (m, .cart1)
  | .fractionalMatrix L, a, m =>
    let m := m.set .frac0 (M3.mul (m a) L.recnormbase)
    let m := m.set .frac1 (M3.mul (M3.trans L.recnormbase) (m .frac0))
    (m, .frac1)
  | .inverse, a, m => (m.set .inv (M3.inverse (m a)), .inv)

/-! ### Numbers -/

/-- `PDFCalculator::getQmax` (PDFCalculator.cpp:285-290) with the parameters of some calculator; the static number is the state. -/
noncomputable def getQmaxB (mqmax rstep : ℝ) (_ : ℝ) : ℝ := min mqmax (Real.pi / rstep)

end Verif.Buffers
