import Verif.Model.R3
import Verif.Model.MathUtils
import Verif.Model.BondGen
/-
Model of src/diffpy/srreal/Lattice.cpp and Lattice.hpp over ℝ.  The members that only repeat rows
or columns of the stored matrices (`mva`..., `mvar`...) and the reciprocal angles in degrees
(`malphar`...), which no other code reads, are left out.
-/
namespace Verif.Lattice
open Verif.R3 Verif.MathUtils Classical

/-- The data of a `Lattice` (Lattice.hpp:143-166). -/
@[ext] structure Lat where
  a : ℝ
  b : ℝ
  c : ℝ
  alpha : ℝ
  beta : ℝ
  gamma : ℝ
  ca : ℝ
  cb : ℝ
  cg : ℝ
  sa : ℝ
  sb : ℝ
  sg : ℝ
  ar : ℝ
  br : ℝ
  cr : ℝ
  car : ℝ
  cbr : ℝ
  cgr : ℝ
  sar : ℝ
  sbr : ℝ
  sgr : ℝ
  metrics : M3
  base : M3
  stdbase : M3
  baserot : M3
  recbase : M3
  normbase : M3
  recnormbase : M3

/-- The square of the volume of the cell with unit edges. -/
def vnormSq (ca cb cg : ℝ) : ℝ := 1 + 2 * ca * cb * cg - ca * ca - cb * cb - cg * cg

/-- `Lattice::volumeNormal` (Lattice.cpp:171-177). -/
noncomputable def Lat.volumeNormal (L : Lat) : ℝ := Real.sqrt (vnormSq L.ca L.cb L.cg)

/-- `Lattice::volume` (Lattice.cpp:180-184). -/
noncomputable def Lat.volume (L : Lat) : ℝ := L.volumeNormal * L.a * L.b * L.c

/-- The reciprocal parameters, the same code in `setLatPar` (Lattice.cpp:68-79) and `setLatBase`
(Lattice.cpp:136-147). -/
noncomputable def Lat.updateReciprocal (L : Lat) : Lat :=
  let V := L.volumeNormal
  let car := (L.cb * L.cg - L.ca) / (L.sb * L.sg)
  let cbr := (L.ca * L.cg - L.cb) / (L.sa * L.sg)
  let cgr := (L.ca * L.cb - L.cg) / (L.sa * L.sb)
  { L with
    ar := L.sa / (L.a * V), br := L.sb / (L.b * V), cr := L.sg / (L.c * V),
    car := car, cbr := cbr, cgr := cgr,
    sar := Real.sqrt (1 - car * car), sbr := Real.sqrt (1 - cbr * cbr),
    sgr := Real.sqrt (1 - cgr * cgr) }

/-- `Lattice::updateMetrics` (Lattice.cpp:285-293). -/
def Lat.updateMetrics (L : Lat) : Lat :=
  { L with metrics :=
      ⟨⟨L.a * L.a, L.a * L.b * L.cg, L.a * L.c * L.cb⟩,
       ⟨L.a * L.b * L.cg, L.b * L.b, L.b * L.c * L.ca⟩,
       ⟨L.a * L.c * L.cb, L.b * L.c * L.ca, L.c * L.c⟩⟩ }

/-- `Lattice::updateStandardBase` (Lattice.cpp:295-309). -/
noncomputable def Lat.updateStandardBase (L : Lat) : Lat :=
  { L with stdbase :=
      ⟨⟨1 / L.ar, -L.cgr / L.sgr / L.ar, L.cb * L.a⟩,
       ⟨0, L.b * L.sa, L.b * L.ca⟩,
       ⟨0, 0, L.c⟩⟩ }

/-- `mrecbase` and the bases normalised by the reciprocal lengths (Lattice.cpp:91-101, :152-165). -/
noncomputable def Lat.updateRecNorm (L : Lat) : Lat :=
  let rb := M3.inverse L.base
  { L with
    recbase := rb,
    normbase := ⟨V3.smul L.ar L.base.r0, V3.smul L.br L.base.r1, V3.smul L.cr L.base.r2⟩,
    recnormbase :=
      ⟨⟨rb.r0.x / L.ar, rb.r0.y / L.br, rb.r0.z / L.cr⟩,
       ⟨rb.r1.x / L.ar, rb.r1.y / L.br, rb.r1.z / L.cr⟩,
       ⟨rb.r2.x / L.ar, rb.r2.y / L.br, rb.r2.z / L.cr⟩⟩ }

/-- `Lattice::setLatPar` (Lattice.cpp:50-102). -/
noncomputable def setLatPar (L : Lat) (a b c alpha beta gamma : ℝ) : Lat :=
  let L1 : Lat := { L with
    a := a, b := b, c := c, alpha := alpha, beta := beta, gamma := gamma,
    ca := cosd alpha, sa := sind alpha, cb := cosd beta, sb := sind beta,
    cg := cosd gamma, sg := sind gamma }
  let L2 := L1.updateReciprocal.updateMetrics.updateStandardBase
  let L3 : Lat := { L2 with base := M3.mul L2.stdbase L2.baserot }
  L3.updateRecNorm

/-- The constructor from parameters (Lattice.cpp:34-46): `mbaserot` is the identity, the other
members (`L0`) are indeterminate before `setLatPar`. -/
noncomputable def create (L0 : Lat) (a b c alpha beta gamma : ℝ) : Lat :=
  setLatPar { L0 with baserot := M3.one } a b c alpha beta gamma

/-- `Lattice::setLatBase` (Lattice.cpp:104-167): the new state and whether the call returned
normally (`false` = it threw `invalid_argument`). -/
noncomputable def setLatBase (L : Lat) (va vb vc : V3) : Lat × Bool :=
  let L0 : Lat := { L with base := ⟨va, vb, vc⟩ }
  let d := M3.det L0.base
  if |d| < 1 / 10 ^ 8 then (L0, false)
  else if d < 0 then (L0, false)
  else
    let a := V3.norm va
    let b := V3.norm vb
    let c := V3.norm vc
    let ca := V3.dot vb vc / (b * c)
    let cb := V3.dot va vc / (a * c)
    let cg := V3.dot va vb / (a * b)
    let L1 : Lat := { L0 with
      a := a, b := b, c := c, ca := ca, cb := cb, cg := cg,
      sa := Real.sqrt (1 - ca * ca), sb := Real.sqrt (1 - cb * cb),
      sg := Real.sqrt (1 - cg * cg),
      alpha := acosd ca, beta := acosd cb, gamma := acosd cg }
    let L2 := L1.updateReciprocal.updateStandardBase
    let L3 : Lat := { L2 with baserot := M3.mul (M3.inverse L2.stdbase) L2.base }
    (L3.updateRecNorm.updateMetrics, true)

/-- `Lattice::dot` (Lattice.hpp:467-479). -/
def Lat.dot (L : Lat) (u v : V3) : ℝ :=
  u.x * v.x * L.metrics.r0.x + u.y * v.y * L.metrics.r1.y + u.z * v.z * L.metrics.r2.z +
    (u.x * v.y + u.y * v.x) * L.metrics.r0.y + (u.x * v.z + u.z * v.x) * L.metrics.r0.z +
    (u.z * v.y + u.y * v.z) * L.metrics.r1.z

/-- `Lattice::norm` (Lattice.hpp:482-486). -/
noncomputable def Lat.norm (L : Lat) (u : V3) : ℝ := Real.sqrt (L.dot u u)

/-- `Lattice::distance` (Lattice.hpp:489-497). -/
noncomputable def Lat.distance (L : Lat) (u v : V3) : ℝ := L.norm (V3.sub u v)

/-- `Lattice::anglerad` (Lattice.hpp:509-514). -/
noncomputable def Lat.anglerad (L : Lat) (u v : V3) : ℝ :=
  Real.arccos (L.dot u v / (L.norm u * L.norm v))

/-- `Lattice::angledeg` (Lattice.hpp:500-506). -/
noncomputable def Lat.angledeg (L : Lat) (u v : V3) : ℝ :=
  acosd (L.dot u v / (L.norm u * L.norm v))

/-- `Lattice::cartesian` (Lattice.cpp:187-192). -/
def Lat.cartesian (L : Lat) (lv : V3) : V3 := M3.vecMul lv L.base

/-- `Lattice::fractional` (Lattice.cpp:194-199). -/
def Lat.fractional (L : Lat) (cv : V3) : V3 := M3.vecMul cv L.recbase

/-- `if (eps_eq(x, 1.0)) x = 0.0` (Lattice.cpp:213-215). -/
noncomputable def snap (x : ℝ) : ℝ := if eps_eq x 1 BondGen.sqrtEps then 0 else x

/-- `Lattice::ucvFractional` (Lattice.cpp:208-217). -/
noncomputable def ucvFractional (lv : V3) : V3 :=
  let r := V3.sub lv (V3.floor lv)
  ⟨snap r.x, snap r.y, snap r.z⟩

/-- `Lattice::ucvCartesian` (Lattice.cpp:201-206). -/
noncomputable def Lat.ucvCartesian (L : Lat) (cv : V3) : V3 :=
  L.cartesian (ucvFractional (L.fractional cv))

/-- `Lattice::cartesianMatrix` (Lattice.cpp:219-225). -/
def Lat.cartesianMatrix (L : Lat) (m : M3) : M3 :=
  M3.mul (M3.trans L.normbase) (M3.mul m L.normbase)

/-- `Lattice::fractionalMatrix` (Lattice.cpp:227-233). -/
def Lat.fractionalMatrix (L : Lat) (m : M3) : M3 :=
  M3.mul (M3.trans L.recnormbase) (M3.mul m L.recnormbase)

/-- The candidates of `ucMaxDiagonal` (Lattice.cpp:238-245). -/
def ucDiagonals : List V3 := [⟨1, 1, 1⟩, ⟨-1, 1, 1⟩, ⟨1, -1, 1⟩, ⟨1, 1, -1⟩]

/-- `Lattice::ucMaxDiagonal` (Lattice.cpp:236-260): linear scan with a strict comparison, starting
from `maxnorm = -1`. -/
noncomputable def Lat.ucMaxDiagonal (L : Lat) : V3 :=
  (ucDiagonals.foldl (fun (acc : ℝ × V3) d =>
    if L.norm d > acc.1 then (L.norm d, d) else acc) (-1, V3.zero)).2

/-- `Lattice::ucMaxDiagonalLength` (Lattice.cpp:263-268). -/
noncomputable def Lat.ucMaxDiagonalLength (L : Lat) : ℝ := L.norm L.ucMaxDiagonal

/-- `Lattice::operator==` (Lattice.cpp:271-275). -/
def Lat.equal (L M : Lat) : Prop := L.base = M.base

/-- Parameters of a proper cell: positive edges, angles strictly between 0 and 180 degrees that
bound a cell of positive volume (`setLatPar` itself checks nothing). -/
def ValidPar (a b c alpha beta gamma : ℝ) : Prop :=
  0 < a ∧ 0 < b ∧ 0 < c ∧ (0 < alpha ∧ alpha < 180) ∧ (0 < beta ∧ beta < 180) ∧
    (0 < gamma ∧ gamma < 180) ∧ 0 < vnormSq (cosd alpha) (cosd beta) (cosd gamma)

/-- The lattices a program can obtain: constructed, then changed by successful calls. -/
inductive Reachable : Lat → Prop
  | create (L0 a b c al be ga) : ValidPar a b c al be ga → Reachable (create L0 a b c al be ga)
  | setLatPar (L a b c al be ga) : Reachable L → ValidPar a b c al be ga →
      Reachable (setLatPar L a b c al be ga)
  | setLatBase (L va vb vc) : Reachable L → (setLatBase L va vb vc).2 = true →
      Reachable (setLatBase L va vb vc).1
  | createBase (L0 va vb vc) : (Lattice.setLatBase L0 va vb vc).2 = true →
      Reachable (Lattice.setLatBase L0 va vb vc).1

end Verif.Lattice
