import Verif.Model.Lattice
/-
Model of src/diffpy/srreal/PointsInSphere.cpp and PointsInSphere.hpp over ℝ; `int` is ℤ.
-/
namespace Verif.Points
open Verif.R3 Verif.MathUtils Verif.Lattice Classical

/-- `pointsinsphere::LatticeParameters` (PointsInSphere.hpp:61-72); angles in degrees, which are
not read after `update`, are left out. -/
structure LatPar where
  a : ℝ
  b : ℝ
  c : ℝ
  ca : ℝ
  cb : ℝ
  cg : ℝ
  sa : ℝ
  sb : ℝ
  sg : ℝ
  ar : ℝ
  br : ℝ
  cr : ℝ
  car : ℝ
  cbr : ℝ
  cgr : ℝ
  sar : ℝ
  sbr : ℝ
  sgr : ℝ

/-- The constructor with `LatticeParameters::update` (PointsInSphere.cpp:34-61). -/
noncomputable def LatPar.create (a b c alpha beta gamma : ℝ) : LatPar :=
  let ca := cosd alpha
  let cb := cosd beta
  let cg := cosd gamma
  let sa := sind alpha
  let sb := sind beta
  let sg := sind gamma
  let V := Real.sqrt (vnormSq ca cb cg)
  let car := (cb * cg - ca) / (sb * sg)
  let cbr := (ca * cg - cb) / (sa * sg)
  let cgr := (ca * cb - cg) / (sa * sb)
  { a := a, b := b, c := c, ca := ca, cb := cb, cg := cg, sa := sa, sb := sb, sg := sg,
    ar := sa / (a * V), br := sb / (b * V), cr := sg / (c * V),
    car := car, cbr := cbr, cgr := cgr,
    sar := Real.sqrt (1 - car * car), sbr := Real.sqrt (1 - cbr * cbr),
    sgr := Real.sqrt (1 - cgr * cgr) }

/-- `LatticeParameters::reciprocal` (PointsInSphere.cpp:64-81): a copy with direct and reciprocal
values swapped. -/
def LatPar.reciprocal (p : LatPar) : LatPar :=
  { a := p.ar, b := p.br, c := p.cr, ar := p.a, br := p.b, cr := p.c,
    ca := p.car, cb := p.cbr, cg := p.cgr, car := p.ca, cbr := p.cb, cgr := p.cg,
    sa := p.sar, sb := p.sbr, sg := p.sgr, sar := p.sa, sbr := p.sb, sgr := p.sg }

/-- The constants set by `PointsInSphere::init` (PointsInSphere.cpp:257-270) with `hi_m` of `rewind`
(:117-118). -/
structure Cfg where
  ar : ℝ
  RminSquare : ℝ
  RmaxSquare : ℝ
  dn0dm : ℝ
  do0dm : ℝ
  do0dn : ℝ
  b2r : ℝ
  c1r : ℝ
  hi_m : ℤ

/-- `PointsInSphere::init` (PointsInSphere.cpp:257-270) and `hi_m` (:117-118). -/
noncomputable def init (rmin rmax : ℝ) (p : LatPar) : Cfg :=
  let b2r := 1 / (p.b * p.sa)
  let c2r := 1 / (p.c * p.sa)
  let ca2r := -p.ca
  { ar := p.ar,
    RminSquare := if rmin < 0 then -(rmin * rmin) else rmin * rmin,
    RmaxSquare := if rmax < 0 then -(rmax * rmax) else rmax * rmax,
    dn0dm := p.cgr * p.br / p.ar,
    do0dm := p.cbr * p.cr / p.ar,
    b2r := b2r,
    do0dn := ca2r * c2r / b2r,
    c1r := 1 / p.c,
    hi_m := ⌈rmax * p.ar⌉ }

/-- The loop variables (PointsInSphere.hpp:124-142); `nHalfSpan` and `oHalfSpan` are local. -/
structure St where
  m : ℤ
  n : ℤ
  o : ℤ
  hi_n : ℤ
  hi_o : ℤ
  outside_o : ℤ
  n0plane : ℝ
  o0plane : ℝ
  o0line : ℝ
  oExcl : ℝ
  RplaneSquare : ℝ

/-- `finished` (PointsInSphere.cpp:137-140). -/
def finished (c : Cfg) (s : St) : Prop := ¬ s.m < c.hi_m

/-- `x > 0.0 ? sqrt(x) : 0.0` (PointsInSphere.cpp:201, :216, :219). -/
noncomputable def sqrtPos (x : ℝ) : ℝ := if x > 0 then Real.sqrt x else 0

/-- `next_m` (PointsInSphere.cpp:190-204). -/
noncomputable def nextM (c : Cfg) (s : St) : St :=
  let m := s.m + 1
  if ¬ m < c.hi_m then { s with m := m }
  else
    let n0 := (m : ℝ) * c.dn0dm
    let rp := c.RmaxSquare - ((m : ℝ) / c.ar) ^ 2
    let nHalf := sqrtPos rp * c.b2r
    { s with m := m, n0plane := n0, o0plane := (m : ℝ) * c.do0dm, RplaneSquare := rp,
             n := ⌊n0 - nHalf⌋, hi_n := ⌈n0 + nHalf⌉ }

/-- The set-up of a line in `next_n` (PointsInSphere.cpp:214-227), `s.n` being the new `n`. -/
noncomputable def setLine (c : Cfg) (s : St) : St :=
  let o0 := s.o0plane + ((s.n : ℝ) - s.n0plane) * c.do0dn
  let rl := s.RplaneSquare - (((s.n : ℝ) - s.n0plane) / c.b2r) ^ 2
  let oHalf := sqrtPos rl * c.c1r
  let re := (rl - c.RmaxSquare) + c.RminSquare
  let oExcl := sqrtPos re * c.c1r
  let outside := ⌈o0 + oHalf⌉
  let hole := ⌈o0 - oExcl⌉
  { s with o0line := o0, oExcl := oExcl, o := ⌊o0 - oHalf⌋, outside_o := outside,
           hi_o := if oExcl ≠ 0 ∧ |(hole : ℝ) - o0| < oExcl then hole else outside }

/-- `next_n` (PointsInSphere.cpp:207-233). -/
noncomputable def nextN (c : Cfg) (s : St) : St :=
  let s1 : St := { s with n := s.n + 1 }
  if s1.n < s1.hi_n then setLine c s1
  else
    let s2 := nextM c s1
    if _h : s2.m < c.hi_m then nextN c s2 else s2
termination_by (c.hi_m - s.m).toNat
decreasing_by
  have hm : (nextM c { s with n := s.n + 1 }).m = s.m + 1 := by
    unfold nextM; simp only; split <;> rfl
  rw [hm] at _h ⊢
  omega

/-- `next_n` either stays in the plane and moves to the next line, or leaves the plane. -/
theorem nextN_progress (c : Cfg) (s : St) :
    ((nextN c s).m = s.m ∧ (nextN c s).n = s.n + 1 ∧ s.n + 1 < s.hi_n ∧ (nextN c s).hi_n = s.hi_n) ∨
    s.m < (nextN c s).m := by
  induction h : (c.hi_m - s.m).toNat using Nat.strong_induction_on generalizing s with
  | _ k ih =>
    have hm : (nextM c { s with n := s.n + 1 }).m = s.m + 1 := by
      unfold nextM; simp only; split <;> rfl
    rw [nextN]
    simp only
    split
    · rename_i hn
      left
      exact ⟨rfl, rfl, hn, rfl⟩
    · right
      split
      · rename_i hf
        rw [hm] at hf
        have := ih (c.hi_m - (nextM c { s with n := s.n + 1 }).m).toNat (by rw [hm]; omega) _ rfl
        rw [hm] at this
        rcases this with h1 | h1
        · omega
        · omega
      · rw [hm]; omega

/-- `next_o` (PointsInSphere.cpp:236-254). -/
noncomputable def nextO (c : Cfg) (s : St) : St :=
  let s1 : St := { s with o := s.o + 1 }
  if s1.o < s1.hi_o then s1
  else if _h1 : s1.hi_o ≠ s1.outside_o then
    let s2 : St := { s1 with hi_o := s1.outside_o, o := ⌈s1.o0line + s1.oExcl⌉ - 1 }
    if s2.m < c.hi_m then nextO c s2 else s2
  else
    let s2 := nextN c s1
    if _h2 : s2.m < c.hi_m then nextO c s2 else s2
termination_by ((c.hi_m - s.m).toNat, (s.hi_n - s.n).toNat, if s.hi_o ≠ s.outside_o then 1 else 0)
decreasing_by
  · have h1 : s.hi_o ≠ s.outside_o := _h1
    have e : (if s.hi_o ≠ s.outside_o then 1 else 0 : Nat) = 1 := if_pos h1
    have e2 : (if s.outside_o ≠ s.outside_o then 1 else 0 : Nat) = 0 := if_neg (by simp)
    rw [e]
    show Prod.Lex _ _ ((c.hi_m - s.m).toNat, (s.hi_n - s.n).toNat,
      if s.outside_o ≠ s.outside_o then 1 else 0) _
    rw [e2]
    exact Prod.Lex.right _ (Prod.Lex.right _ Nat.zero_lt_one)
  · have hp := nextN_progress c { s with o := s.o + 1 }
    have h2 : (nextN c { s with o := s.o + 1 }).m < c.hi_m := _h2
    show Prod.Lex _ _ ((c.hi_m - (nextN c { s with o := s.o + 1 }).m).toNat,
      ((nextN c { s with o := s.o + 1 }).hi_n - (nextN c { s with o := s.o + 1 }).n).toNat, _) _
    simp only at hp
    rcases hp with ⟨h1, h3, h4, h5⟩ | h1
    · rw [h1, h3, h5]
      refine Prod.Lex.right _ (Prod.Lex.left _ _ ?_)
      omega
    · refine Prod.Lex.left _ _ ?_
      omega

/-- `rewind` (PointsInSphere.cpp:115-128); `rp` is the stale `RplaneSquare`. -/
noncomputable def rewind (c : Cfg) (rp : ℝ) : St :=
  nextO c { m := -c.hi_m, n := 0, o := 0, hi_n := 0, hi_o := 0, outside_o := 0, n0plane := 0,
            o0plane := 0, o0line := 0, oExcl := 0, RplaneSquare := rp }

/-- `m()`, `n()`, `o()`. -/
def St.mno (s : St) : ℤ × ℤ × ℤ := (s.m, s.n, s.o)

/-- Big-step meaning of `for (; !sph.finished(); sph.next()) visit(sph.mno())`. -/
inductive Visits (c : Cfg) : St → List (ℤ × ℤ × ℤ) → Prop
  | done (s) : finished c s → Visits c s []
  | next (s l) : ¬ finished c s → Visits c (nextO c s) l → Visits c s (s.mno :: l)

/-- `r()` (PointsInSphere.cpp:180-186) for the triplet `(m, n, o)`. -/
noncomputable def radius (p : LatPar) (t : ℤ × ℤ × ℤ) : ℝ :=
  let m : ℝ := t.1
  let n : ℝ := t.2.1
  let o : ℝ := t.2.2
  Real.sqrt (m * m * p.a * p.a + n * n * p.b * p.b + o * o * p.c * p.c +
    2 * m * n * p.a * p.b * p.cg + 2 * m * o * p.a * p.c * p.cb + 2 * n * o * p.b * p.c * p.ca)

/-- `for (sph.rewind(); !sph.finished(); sph.next())` visits the triplets `l` in this order. -/
def SphereVisits (rmin rmax : ℝ) (p : LatPar) (l : List (ℤ × ℤ × ℤ)) : Prop :=
  ∃ rp, Visits (init rmin rmax p) (rewind (init rmin rmax p) rp) l

/-- `ReflectionsInQminQmax` (PointsInSphere.cpp:278-315): a sphere over the reciprocal lattice. -/
def ReflectionVisits (qmin qmax : ℝ) (p : LatPar) (l : List (ℤ × ℤ × ℤ)) : Prop :=
  SphereVisits (qmin * (1 / Real.pi) / 2) (qmax * (1 / Real.pi) / 2) p.reciprocal l

/-- `ReflectionsInDmaxDmin` (PointsInSphere.cpp:370-383, PointsInSphere.hpp:243-248): the reflections between the Q values of the
two spacings. -/
def SpacingVisits (dmax dmin : ℝ) (p : LatPar) (l : List (ℤ × ℤ × ℤ)) : Prop :=
  ReflectionVisits (2 * Real.pi / dmax) (2 * Real.pi / dmin) p l

/-- `ReflectionsInQminQmax::Q` (PointsInSphere.cpp:353-356). -/
noncomputable def reflQ (p : LatPar) (t : ℤ × ℤ × ℤ) : ℝ := 2 * Real.pi * radius p.reciprocal t

/-- `ReflectionsInQminQmax::d` (PointsInSphere.cpp:359-362). -/
noncomputable def reflD (p : LatPar) (t : ℤ × ℤ × ℤ) : ℝ := 1 / radius p.reciprocal t

/-! ### Copies

`PointsInSphere` has reference members `_m`, `_n`, `_o` bound to its array `_mno` (PointsInSphere.hpp:124-127).
The copy constructor of the compiler copies the array but binds the references of the copy to the array of the
source.  All writes go through the references, all reads (`m()`, `n()`, `o()`) through the own array
(PointsInSphere.cpp:162-177).  `k` is the copy, `s` the source; `none` when the call does not return within
`fuel` rounds of its loops. -/

/-- `next_m` of a copy (PointsInSphere.cpp:190-204). -/
noncomputable def copyM (c : Cfg) (ks : St × St) : St × St :=
  let k := ks.1
  let s : St := { ks.2 with m := ks.2.m + 1 }
  if ¬ k.m < c.hi_m then (k, s)
  else
    let n0 := (k.m : ℝ) * c.dn0dm
    let rp := c.RmaxSquare - ((k.m : ℝ) / c.ar) ^ 2
    let nHalf := sqrtPos rp * c.b2r
    ({ k with n0plane := n0, o0plane := (k.m : ℝ) * c.do0dm, RplaneSquare := rp, hi_n := ⌈n0 + nHalf⌉ },
      { s with n := ⌊n0 - nHalf⌋ })

/-- `next_n` of a copy (PointsInSphere.cpp:207-233). -/
noncomputable def copyN (c : Cfg) : Nat → St × St → Option (St × St)
  | 0, _ => none
  | fuel + 1, (k, s) =>
    let s1 : St := { s with n := s.n + 1 }
    if k.n < k.hi_n then
      let l := setLine c k
      some ({ l with o := k.o }, { s1 with o := l.o })
    else
      let ks := copyM c (k, s1)
      if ks.1.m < c.hi_m then copyN c fuel ks else some ks

/-- `next` of a copy (PointsInSphere.cpp:131-134, :236-254). -/
noncomputable def copyNext (c : Cfg) : Nat → St × St → Option (St × St)
  | 0, _ => none
  | fuel + 1, (k, s) =>
    let s1 : St := { s with o := s.o + 1 }
    if k.o < k.hi_o then some (k, s1)
    else if k.hi_o ≠ k.outside_o then
      let k2 : St := { k with hi_o := k.outside_o }
      let s2 : St := { s1 with o := ⌈k.o0line + k.oExcl⌉ - 1 }
      if k2.m < c.hi_m then copyNext c fuel (k2, s2) else some (k2, s2)
    else
      match copyN c fuel (k, s1) with
      | none => none
      | some ks => if ks.1.m < c.hi_m then copyNext c fuel ks else some ks

/-- `rewind` of a copy (PointsInSphere.cpp:115-128). -/
noncomputable def copyRewind (c : Cfg) (fuel : Nat) (ks : St × St) : Option (St × St) :=
  let k : St := { ks.1 with hi_n := 0, hi_o := 0, outside_o := 0, n0plane := 0, o0plane := 0, o0line := 0, oExcl := 0 }
  let s : St := { ks.2 with m := -c.hi_m, n := 0, o := 0 }
  copyNext c fuel (k, s)

/-- Big-step meaning of `for (; !copy.finished(); copy.next()) visit(copy.mno())`: the points and the state of
the source afterwards. -/
inductive CopyVisits (c : Cfg) : St × St → List (ℤ × ℤ × ℤ) → Prop
  | done (ks) : finished c ks.1 → CopyVisits c ks []
  | next (ks ks' fuel l) : ¬ finished c ks.1 → copyNext c fuel ks = some ks' → CopyVisits c ks' l →
      CopyVisits c ks (ks.1.mno :: l)

end Verif.Points
