import Verif.Model.R3
/-
Model of the bond generators: src/diffpy/srreal/BaseBondGenerator.cpp,
PeriodicStructureAdapter.cpp:129-233 and CrystalStructureAdapter.cpp:280-362.
-/
namespace Verif.BondGen
open Verif.R3 Classical

/-- The loop control shared by all bond generators: `finished()`, `getNextBond()` and the
condition of `advanceWhileInvalid` (BaseBondGenerator.cpp:55-75, :244-251), with a measure that
`getNextBond` decreases (the number of raw bonds left). -/
structure Machine (σ : Type) where
  fin : σ → Bool
  step : σ → σ
  bad : σ → Prop
  μ : σ → Nat
  dec : ∀ s, fin s = false → μ (step s) < μ s

/-- `BaseBondGenerator::advanceWhileInvalid` (BaseBondGenerator.cpp:244-251). -/
noncomputable def Machine.advance {σ : Type} (M : Machine σ) (s : σ) : σ :=
  if _h : M.fin s = true then s
  else if M.bad s then M.advance (M.step s) else s
termination_by M.μ s
decreasing_by exact M.dec s (by simpa using _h)

/-- All states met by repeated `getNextBond` until finished. -/
noncomputable def Machine.states {σ : Type} (M : Machine σ) (s : σ) : List σ :=
  if _h : M.fin s = true then [] else s :: M.states (M.step s)
termination_by M.μ s
decreasing_by exact M.dec s (by simpa using _h)

theorem Machine.advance_le {σ : Type} (M : Machine σ) (s : σ) : M.μ (M.advance s) ≤ M.μ s := by
  induction h : M.μ s using Nat.strong_induction_on generalizing s with
  | _ n ih =>
    subst h
    unfold Machine.advance
    split
    · exact Nat.le_refl _
    · rename_i hf
      split
      · have hd := M.dec s (by simpa using hf)
        exact Nat.le_trans (ih _ hd _ rfl) (Nat.le_of_lt hd)
      · exact Nat.le_refl _

/-- The user's loop `for (; !finished(); next()) visit()` (e.g. PQEvaluator.cpp:118), where
`next()` is `getNextBond` followed by `advanceWhileInvalid` (BaseBondGenerator.cpp:65-69). -/
noncomputable def Machine.collect {σ β : Type} (M : Machine σ) (out : σ → β) (s : σ) : List β :=
  if _h : M.fin s = true then [] else out s :: M.collect out (M.advance (M.step s))
termination_by M.μ s
decreasing_by exact Nat.lt_of_le_of_lt (M.advance_le _) (M.dec s (by simpa using _h))

/-- `SQRT_DOUBLE_EPS` (mathutils.hpp:34): sqrt(2^-52) = 2^-26. -/
noncomputable def sqrtEps : ℝ := 1 / 2 ^ 26

/-- `eps_eq` (mathutils.ipp:114-117). -/
def epsEq (x y : ℝ) : Prop := |x - y| ≤ sqrtEps

/-- Bond data kept by the generator (BaseBondGenerator.hpp:83-86): `mr1`, `mr01`, `mdistance`. -/
structure Cur where
  r1 : V3
  r01 : V3
  dist : ℝ

/-- `BaseBondGenerator::updateDistance` (BaseBondGenerator.cpp:234-240) for the new `mr1`; on an
early return the later components of `mr01` keep their old values. -/
noncomputable def updateDistance (r0 : V3) (rmax : ℝ) (old : Cur) (r1 : V3) : Cur :=
  let dx := r1.x - r0.x
  if |dx| > rmax then ⟨r1, ⟨dx, old.r01.y, old.r01.z⟩, |dx|⟩
  else
    let dy := r1.y - r0.y
    if |dy| > rmax then ⟨r1, ⟨dx, dy, old.r01.z⟩, |dy|⟩
    else
      let dz := r1.z - r0.z
      if |dz| > rmax then ⟨r1, ⟨dx, dy, dz⟩, |dz|⟩
      else ⟨r1, ⟨dx, dy, dz⟩, V3.norm ⟨dx, dy, dz⟩⟩

/-- Generator settings: `mr0`, `mrmin`, `mrmax`. -/
structure Cfg where
  r0 : V3
  rmin : ℝ
  rmax : ℝ

/-- `bondOutOfRange() || atSelfPair()` (BaseBondGenerator.cpp:255-267). -/
def badBond (c : Cfg) (d : ℝ) : Prop := (d < c.rmin ∨ d > c.rmax) ∨ epsEq d 0

/-! ### Base generator -/

/-- State: `[msite_current, msite_last)` and the bond data. -/
structure BSt where
  rest : List Nat
  cur : Cur

/-- `BaseBondGenerator::rewindSymmetry` (BaseBondGenerator.cpp:218-222). -/
noncomputable def baseRewindSymmetry (c : Cfg) (pos : Nat → V3) (s : BSt) : BSt :=
  match s.rest with
  | [] => s
  | i :: _ => { s with cur := updateDistance c.r0 c.rmax s.cur (pos i) }

/-- `BaseBondGenerator::getNextBond` (BaseBondGenerator.cpp:225-231), `iterateSymmetry` being
false (:212-215); on a finished generator `++msite_current` is not modelled (never called). -/
noncomputable def baseNext (c : Cfg) (pos : Nat → V3) (s : BSt) : BSt :=
  let s1 : BSt := { s with rest := s.rest.tail }
  if s1.rest.isEmpty then s1 else baseRewindSymmetry c pos s1

theorem baseRewind_rest (c : Cfg) (pos : Nat → V3) (s : BSt) :
    (baseRewindSymmetry c pos s).rest = s.rest := by
  unfold baseRewindSymmetry; split <;> simp_all

/-- The base generator as a machine. -/
noncomputable def baseMachine (c : Cfg) (pos : Nat → V3) : Machine BSt where
  fin s := s.rest.isEmpty
  step := baseNext c pos
  bad s := badBond c s.cur.dist
  μ s := s.rest.length
  dec s h := by
    have : s.rest ≠ [] := by simpa using h
    have hl : s.rest.tail.length < s.rest.length := by
      rw [List.length_tail]
      have := List.length_pos_of_ne_nil this
      omega
    unfold baseNext
    simp only
    split
    · exact hl
    · rw [baseRewind_rest]; exact hl

/-- A visited bond: `site1()`, `r1()`, `r01()`, `distance()`. -/
structure Bond where
  site1 : Nat
  r1 : V3
  r01 : V3
  distance : ℝ

/-- Data read by the user at an unfinished state. -/
def BSt.out (s : BSt) : Bond := ⟨s.rest.headD 0, s.cur.r1, s.cur.r01, s.cur.dist⟩

/-- `for (bnds.rewind(); !bnds.finished(); bnds.next())` over the selected sites `sel`
(BaseBondGenerator.cpp:55-69), `old` being the bond data left from before. -/
noncomputable def baseLoop (c : Cfg) (pos : Nat → V3) (sel : List Nat) (old : Cur) : List Bond :=
  let s0 : BSt := ⟨sel, old⟩
  if sel.isEmpty then []
  else
    let M := baseMachine c pos
    M.collect BSt.out (M.advance (baseRewindSymmetry c pos s0))

/-! ### Periodic generator

The lattice-point iterator `PointsInSphere` is a list of Cartesian lattice vectors `pts` (its own
model is in `Model/Points.lean`). -/

/-- State: `[msite_current, msite_last)`, remaining sphere points (the head is the current one),
`mrcsphere` and the bond data. -/
structure PSt where
  rest : List Nat
  pts : List V3
  rc : V3
  cur : Cur

/-- `PeriodicStructureBondGenerator::updater1` (PeriodicStructureAdapter.cpp:229-233). -/
noncomputable def perUpdater1 (c : Cfg) (pos : Nat → V3) (s : PSt) : PSt :=
  match s.rest with
  | [] => s
  | i :: _ => { s with cur := updateDistance c.r0 c.rmax s.cur (V3.add s.rc (pos i)) }

/-- `PeriodicStructureBondGenerator::getNextBond` with `iterateSymmetry`
(PeriodicStructureAdapter.cpp:196-203, :215-225). -/
noncomputable def perNext (c : Cfg) (pos : Nat → V3) (sel : List Nat) (s : PSt) : PSt :=
  let rest1 := s.rest.tail
  let s1 : PSt :=
    if rest1.isEmpty then
      match s.pts.tail with
      | [] => { s with rest := [], pts := [], rc := V3.zero }
      | p :: ps => { s with rest := sel, pts := p :: ps, rc := p }
    else { s with rest := rest1 }
  if s1.rest.isEmpty then s1 else perUpdater1 c pos s1

theorem perUpdater1_shape (c : Cfg) (pos : Nat → V3) (s : PSt) :
    (perUpdater1 c pos s).rest = s.rest ∧ (perUpdater1 c pos s).pts = s.pts := by
  unfold perUpdater1; split <;> simp_all

/-- The periodic generator as a machine. -/
noncomputable def perMachine (c : Cfg) (pos : Nat → V3) (sel : List Nat) : Machine PSt where
  fin s := s.rest.isEmpty
  step := perNext c pos sel
  bad s := badBond c s.cur.dist
  μ s := s.rest.length + s.pts.tail.length * (sel.length + 1)
  dec s h := by
    have hne : s.rest ≠ [] := by simpa using h
    have hpos := List.length_pos_of_ne_nil hne
    unfold perNext
    simp only
    by_cases h1 : s.rest.tail.isEmpty = true
    · simp only [h1, if_true]
      cases hp : s.pts.tail with
      | nil => simp; exact hpos
      | cons p ps =>
        simp only
        have key : sel.length + ps.length * (sel.length + 1)
            < s.rest.length + (ps.length + 1) * (sel.length + 1) := by
          rw [Nat.succ_mul]; omega
        split
        · simpa using key
        · simp only [perUpdater1_shape]; simpa using key
    · simp only [h1, Bool.false_eq_true, if_false]
      rw [(perUpdater1_shape _ _ _).1, (perUpdater1_shape _ _ _).2]
      simp only [List.length_tail]
      omega

/-- Data read by the user at an unfinished state. -/
def PSt.out (s : PSt) : Bond := ⟨s.rest.headD 0, s.cur.r1, s.cur.r01, s.cur.dist⟩

/-- `rewind` (PeriodicStructureAdapter.cpp:154-169, :206-212; BaseBondGenerator.cpp:55-62) and the
user's loop.  An empty point list still starts with the zero vector. -/
noncomputable def perLoop (c : Cfg) (pos : Nat → V3) (pts : List V3) (sel : List Nat) (old : Cur) :
    List Bond :=
  if sel.isEmpty then []
  else
    let M := perMachine c pos sel
    let s0 : PSt := ⟨sel, pts, pts.headD V3.zero, old⟩
    M.collect PSt.out (M.advance (perUpdater1 c pos s0))

/-! ### Crystal generator -/

/-- State: `[msite_current, msite_last)`, the symmetry positions of the current site from
`msymidx` on, remaining sphere points, `mrcsphere`, bond data. -/
structure CSt where
  rest : List Nat
  sym : List V3
  pts : List V3
  rc : V3
  cur : Cur

/-- `CrystalStructureBondGenerator::updater1` (CrystalStructureAdapter.cpp:346-353). -/
noncomputable def cryUpdater1 (c : Cfg) (s : CSt) : CSt :=
  match s.sym with
  | [] => s
  | q :: _ => { s with cur := updateDistance c.r0 c.rmax s.cur (V3.add s.rc q) }

/-- `PeriodicStructureBondGenerator::rewindSymmetry` as called by the crystal generator
(PeriodicStructureAdapter.cpp:206-212). -/
noncomputable def cryRewindSphere (c : Cfg) (pts : List V3) (s : CSt) : CSt :=
  cryUpdater1 c { s with pts := pts, rc := pts.headD V3.zero }

/-- `BaseBondGenerator::getNextBond` with the crystal `iterateSymmetry` and `rewindSymmetry`
(CrystalStructureAdapter.cpp:312-343; BaseBondGenerator.cpp:225-231); `syms i` are the symmetry
positions of site `i`. -/
noncomputable def cryNext (c : Cfg) (syms : Nat → List V3) (pts : List V3) (s : CSt) : CSt :=
  match s.pts.tail with
  | p :: ps => cryUpdater1 c { s with pts := p :: ps, rc := p }
  | [] =>
    match s.sym.tail with
    | q :: qs => cryRewindSphere c pts { s with sym := q :: qs }
    | [] =>
      match s.rest.tail with
      | [] => { s with rest := [], sym := [], pts := [], rc := V3.zero }
      | i :: is => cryRewindSphere c pts { s with rest := i :: is, sym := syms i }

theorem cryUpdater1_shape (c : Cfg) (s : CSt) :
    (cryUpdater1 c s).rest = s.rest ∧ (cryUpdater1 c s).pts = s.pts ∧
      (cryUpdater1 c s).sym = s.sym := by
  unfold cryUpdater1; split <;> simp_all

/-- The crystal generator as a machine. -/
noncomputable def cryMachine (c : Cfg) (syms : Nat → List V3) (pts : List V3) : Machine CSt where
  fin s := s.rest.isEmpty
  step := cryNext c syms pts
  bad s := badBond c s.cur.dist
  μ s := s.pts.tail.length + s.sym.tail.length * (pts.length + 1) +
    (s.rest.tail.map fun i => (syms i).length * (pts.length + 1) + pts.length + 1).sum +
    (if s.rest.isEmpty then 0 else 1)
  dec s h := by
    have hne : s.rest ≠ [] := by simpa using h
    have hne' : s.rest.isEmpty = false := by simpa using hne
    unfold cryNext
    rw [hne']
    cases hp : s.pts.tail with
    | cons p ps =>
      simp only [cryUpdater1_shape, hne']
      simp
    | nil =>
      simp only
      cases hq : s.sym.tail with
      | cons q qs =>
        simp only [cryRewindSphere, cryUpdater1_shape, hne', List.tail_cons, List.length_cons,
          Nat.succ_mul, List.length_tail, List.length_nil]
        omega
      | nil =>
        simp only
        cases hr : s.rest.tail with
        | nil => simp
        | cons i is =>
          simp only [cryRewindSphere, cryUpdater1_shape, List.tail_cons, List.length_tail,
            List.length_nil, List.map_cons, List.sum_cons, List.isEmpty_cons]
          have : ((syms i).length - 1) * (pts.length + 1) ≤ (syms i).length * (pts.length + 1) :=
            Nat.mul_le_mul_right _ (Nat.sub_le _ _)
          simp
          omega

/-- Data read by the user at an unfinished state. -/
def CSt.out (s : CSt) : Bond := ⟨s.rest.headD 0, s.cur.r1, s.cur.r01, s.cur.dist⟩

/-- `rewind` and the user's loop for the crystal generator. -/
noncomputable def cryLoop (c : Cfg) (syms : Nat → List V3) (pts : List V3) (sel : List Nat)
    (old : Cur) : List Bond :=
  match sel with
  | [] => []
  | i :: is =>
    let M := cryMachine c syms pts
    M.collect CSt.out (M.advance (cryRewindSphere c pts ⟨i :: is, syms i, [], V3.zero, old⟩))

end Verif.BondGen
