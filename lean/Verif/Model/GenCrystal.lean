import Verif.Model.GenObject
/-!
Model of the crystal bond generator as an object that the user keeps (CrystalStructureAdapter.cpp:280-362 on top of
PeriodicStructureAdapter.cpp:129-233 and BaseBondGenerator.cpp:33-268).  The conventions are those of
`Model/GenObject.lean`.

The equivalent positions (`msymatoms`) belong to the structure: they are computed anew by every
`createBondGenerator()` and by queries after edits of the symmetry, and the generator reads them through the structure.
It also keeps a pointer (`mpuc1`) to the displacement tensor of the current equivalent atom.  Storage that is
computed anew has a new version number here; a pointer of an older version dangles.
-/
namespace Verif.GenObj
open Verif.R3 Verif.BondGen Classical

variable {G : Geo}

/-- A crystal structure: lattice, positions of the atoms, equivalent positions of each atom (`msymatoms`) and the
version of their storage. -/
structure CWorld (G : Geo) where
  lat : G.Lat
  pos : List V3
  syms : List (List V3)
  ver : Nat

/-- CrystalStructureBondGenerator (CrystalStructureAdapter.hpp:133-165): the base object, `msphere`, `mrcsphere`,
`msymidx` and `mpuc1` (version of the storage, site and index of the equivalent atom; `none` is the address of
`zeromatrix()`). -/
structure CryGen (G : Geo) where
  g : Gen
  sphere : Option (List G.Pt × List G.Pt)
  rc : V3
  symidx : Nat
  ptr : Option (Nat × Nat × Nat)

/-- The constructor (CrystalStructureAdapter.cpp:286-293); the positions stored by the periodic constructor are not
used by this class. -/
noncomputable def CryGen.new (w : CWorld G) : CryGen G where
  g := Gen.new w.pos.length
  sphere := none
  rc := V3.zero
  symidx := 0
  ptr := none

/-- `selectAnchorSite` (CrystalStructureAdapter.cpp:297-302): the first equivalent position. -/
noncomputable def CryGen.selectAnchor (w : CWorld G) (a : Nat) (p : CryGen G) : Option (CryGen G) :=
  match p.g.selectAnchor w.pos a with
  | none => none
  | some g1 =>
    match w.syms[a]? with
    | none => none
    | some sa =>
      match sa[0]? with
      | none => none
      | some r => some { p with g := { g1 with c := ⟨r, g1.c.rmin, g1.c.rmax⟩ } }

/-- `setRmin`, inherited (PeriodicStructureAdapter.cpp:179-184). -/
noncomputable def CryGen.setRmin (r : ℝ) (p : CryGen G) : CryGen G :=
  { p with
    sphere := if p.g.c.rmin ≠ r then none else p.sphere
    g := p.g.setRmin r }

/-- `setRmax`, inherited (PeriodicStructureAdapter.cpp:187-192). -/
noncomputable def CryGen.setRmax (r : ℝ) (p : CryGen G) : CryGen G :=
  { p with
    sphere := if p.g.c.rmax ≠ r then none else p.sphere
    g := p.g.setRmax r }

/-- `symatoms(site1())` (CrystalStructureAdapter.cpp:356-361). -/
def CryGen.here (w : CWorld G) (p : CryGen G) : Option (Nat × List V3) :=
  match p.g.site1 with
  | none => none
  | some i => (w.syms[i]?).map (i, ·)

/-- `updater1` (CrystalStructureAdapter.cpp:344-351). -/
noncomputable def CryGen.updater1 (w : CWorld G) (p : CryGen G) : Option (CryGen G) :=
  match p.here w with
  | none => none
  | some (i, sa) =>
    match sa[p.symidx]? with
    | none => none
    | some q => some { p with
                       ptr := some (w.ver, i, p.symidx)
                       g := { p.g with
                              bd := updateDistance p.g.c.r0 p.g.c.rmax p.g.bd (V3.add p.rc q) } }

/-- `PeriodicStructureBondGenerator::rewindSymmetry` with the crystal `updater1`
(PeriodicStructureAdapter.cpp:206-212). -/
noncomputable def CryGen.rewindSphere (w : CWorld G) (p : CryGen G) : Option (CryGen G) :=
  match p.sphere with
  | none => none
  | some (ts, _) => CryGen.updater1 w { p with
                                        sphere := some (ts, ts)
                                        rc := match ts with
                                              | [] => V3.zero
                                              | t :: _ => G.cart w.lat t }

/-- `rewindSymmetry` (CrystalStructureAdapter.cpp:330-335). -/
noncomputable def CryGen.rewindSym (w : CWorld G) (p : CryGen G) : Option (CryGen G) :=
  CryGen.rewindSphere w { p with symidx := 0 }

/-- `getNextBond` (BaseBondGenerator.cpp:225-231) with `iterateSymmetry`
(CrystalStructureAdapter.cpp:311-327; PeriodicStructureAdapter.cpp:196-203): the next lattice point, or the next
equivalent position, or the next site. -/
noncomputable def CryGen.getNext (w : CWorld G) (p : CryGen G) : Option (CryGen G) :=
  match p.sphere with
  | none => none
  | some (ts, rest) =>
    match rest.tail with
    | t :: more => CryGen.updater1 w { p with
                                       sphere := some (ts, t :: more)
                                       rc := G.cart w.lat t }
    | [] =>
      match p.here w with
      | none => none
      | some (_, sa) =>
        let p1 : CryGen G := { p with
                               sphere := some (ts, [])
                               rc := V3.zero
                               symidx := p.symidx + 1 }
        if sa.length ≤ p1.symidx then
          let p2 : CryGen G := { p1 with g := { p1.g with cur := p1.g.cur + 1 } }
          if p2.g.last ≤ p2.g.cur then some p2 else p2.rewindSym w
        else p1.rewindSphere w

/-- Equivalent positions left at the current site. -/
def CryGen.symLeft (w : CWorld G) (p : CryGen G) : Nat :=
  match p.here w with
  | none => 0
  | some (_, sa) => sa.length - p.symidx

/-- Sphere points left. -/
def CryGen.left (p : CryGen G) : Nat :=
  match p.sphere with
  | none => 0
  | some (_, rest) => rest.tail.length

/-- The raw bonds left, as a lexicographic measure. -/
def CryGen.mu (w : CWorld G) (p : CryGen G) : Nat × Nat × Nat := (p.g.last - p.g.cur, p.symLeft w, p.left)

/-- The order of the measure. -/
def mlt (a b : Nat × Nat × Nat) : Prop :=
  a.1 < b.1 ∨ (a.1 = b.1 ∧ (a.2.1 < b.2.1 ∨ (a.2.1 = b.2.1 ∧ a.2.2 < b.2.2)))

theorem mlt_trans {a b c : Nat × Nat × Nat} (h1 : mlt a b) (h2 : mlt b c) : mlt a c := by
  unfold mlt at *; omega

theorem mlt_lex {a b : Nat × Nat × Nat} (h : mlt a b) : Prod.Lex (· < ·) (Prod.Lex (· < ·) (· < ·)) a b := by
  rw [Prod.lex_def]
  rcases h with h | ⟨h1, h2⟩
  · exact Or.inl h
  · refine Or.inr ⟨h1, ?_⟩
    rw [Prod.lex_def]
    exact h2

theorem CryGen.updater1_shape {w : CWorld G} {p p' : CryGen G} (h : p.updater1 w = some p') :
    ∃ b t, p' = { p with
                  ptr := t
                  g := { p.g with bd := b } } := by
  unfold CryGen.updater1 at h
  split at h
  · cases h
  · split at h
    · cases h
    · cases h; exact ⟨_, _, rfl⟩

theorem CryGen.rewindSphere_shape {w : CWorld G} {p p' : CryGen G} (h : p.rewindSphere w = some p') :
    ∃ b t ts old rc, p.sphere = some (ts, old) ∧ p' = { p with
                  ptr := t
                  sphere := some (ts, ts)
                  rc := rc
                  g := { p.g with bd := b } } := by
  unfold CryGen.rewindSphere at h
  split at h
  · cases h
  · rename_i ts old hs
    obtain ⟨b, t, rfl⟩ := CryGen.updater1_shape h
    exact ⟨b, t, ts, old, _, hs, rfl⟩

theorem CryGen.getNext_dec {w : CWorld G} {p p' : CryGen G} (h : p.getNext w = some p')
    (hf : ¬ p.g.last ≤ p.g.cur) : mlt (p'.mu w) (p.mu w) := by
  unfold CryGen.getNext at h
  split at h
  · cases h
  · rename_i ts rest hs
    split at h
    · rename_i t more ht
      obtain ⟨b, t', rfl⟩ := CryGen.updater1_shape h
      have e : p.left = more.length + 1 := by unfold CryGen.left; rw [hs]; simp [ht]
      right
      refine ⟨rfl, Or.inr ⟨rfl, ?_⟩⟩
      show _ < p.left
      rw [e]
      simp [CryGen.mu, CryGen.left]
    · split at h
      · cases h
      · rename_i i sa hh
        dsimp only at h
        split at h
        · split at h
          · cases h
            left
            simp only [CryGen.mu]
            omega
          · unfold CryGen.rewindSym at h
            obtain ⟨b, t', ts', old, rc, _, rfl⟩ := CryGen.rewindSphere_shape h
            left
            simp only [CryGen.mu]
            omega
        · rename_i hlen
          obtain ⟨b, t', ts', old, rc, _, rfl⟩ := CryGen.rewindSphere_shape h
          right
          refine ⟨rfl, Or.inl ?_⟩
          have e : p.symLeft w = sa.length - p.symidx := by unfold CryGen.symLeft; rw [hh]
          show _ < p.symLeft w
          rw [e]
          have hh' : CryGen.here w { p with
              ptr := t'
              sphere := some (ts', ts')
              rc := rc
              symidx := p.symidx + 1
              g := { p.g with bd := b } } = some (i, sa) := hh
          simp only [CryGen.mu, CryGen.symLeft]
          rw [hh']
          simp only
          omega

/-- `advanceWhileInvalid` (BaseBondGenerator.cpp:244-251) with the crystal `getNextBond`. -/
noncomputable def CryGen.advance (w : CWorld G) (p : CryGen G) : Option (CryGen G) :=
  if _h : p.g.last ≤ p.g.cur then some p
  else if badBond p.g.c p.g.bd.dist then
    match _hn : p.getNext w with
    | none => none
    | some p1 => CryGen.advance w p1
  else some p
termination_by p.mu w
decreasing_by exact mlt_lex (CryGen.getNext_dec _hn _h)

/-- The sphere is created when there is none (PeriodicStructureAdapter.cpp:158-165). -/
noncomputable def CryGen.withSphere (w : CWorld G) (p : CryGen G) : CryGen G :=
  match p.sphere with
  | some _ => p
  | none =>
    let ts := G.visits w.lat (p.g.c.rmin - G.diag w.lat) (p.g.c.rmax + G.diag w.lat)
    { p with sphere := some (ts, ts) }

/-- `rewind()` (PeriodicStructureAdapter.cpp:154-169; BaseBondGenerator.cpp:55-62). -/
noncomputable def CryGen.rewind (w : CWorld G) (p : CryGen G) : Option (CryGen G) :=
  let p0 : CryGen G := p.withSphere w
  let p1 : CryGen G := { p0 with g := { p0.g with cur := p0.g.first } }
  if p1.g.last ≤ p1.g.cur then some p1
  else
    match p1.rewindSym w with
    | none => none
    | some p2 => p2.advance w

/-- `next()` (BaseBondGenerator.cpp:65-69). -/
noncomputable def CryGen.next (w : CWorld G) (p : CryGen G) : Option (CryGen G) :=
  match p.getNext w with
  | none => none
  | some p1 => p1.advance w

theorem CryGen.advance_le (w : CWorld G) (p : CryGen G) : ∀ p', p.advance w = some p' →
    mlt (p'.mu w) (p.mu w) ∨ p' = p := by
  fun_induction CryGen.advance w p with
  | case1 p h => intro p' h'; cases h'; exact Or.inr rfl
  | case2 p h hb hn => intro p' h'; cases h'
  | case3 p h hb p1 hn ih =>
    intro p' h'
    left
    have h1 := CryGen.getNext_dec hn h
    rcases ih p' h' with h2 | rfl
    · exact mlt_trans h2 h1
    · exact h1
  | case4 p h hb => intro p' h'; cases h'; exact Or.inr rfl

/-- `Ucartesian1()` (CrystalStructureAdapter.cpp:305-308): the equivalent atom whose tensor is read; `none` when the
pointer dangles.  The address of `zeromatrix()` is always valid (inner `none`). -/
def CryGen.ucart1 (w : CWorld G) (p : CryGen G) : Option (Option (Nat × Nat)) :=
  match p.ptr with
  | none => some none
  | some (v, i, k) => if v = w.ver then some (some (i, k)) else none

/-- A visited bond: the data of `Bond` and the atom whose tensor `Ucartesian1()` gives. -/
structure CBond where
  bond : Bond
  atom1 : Option (Option (Nat × Nat))

/-- The user's loop from an already rewound generator. -/
noncomputable def CryGen.collect (w : CWorld G) (p : CryGen G) : Option (List CBond × CryGen G) :=
  if _h : p.g.last ≤ p.g.cur then some ([], p)
  else
    match p.g.site1 with
    | none => none
    | some i =>
      match _hn : p.next w with
      | none => none
      | some p1 =>
        match CryGen.collect w p1 with
        | none => none
        | some (l, p') => some (⟨⟨i, p.g.bd.r1, p.g.bd.r01, p.g.bd.dist⟩, p.ucart1 w⟩ :: l, p')
termination_by p.mu w
decreasing_by
  unfold CryGen.next at _hn
  split at _hn
  · cases _hn
  · rename_i q hq
    have h1 := CryGen.getNext_dec hq _h
    rcases CryGen.advance_le w q p1 _hn with h2 | rfl
    · exact mlt_lex (mlt_trans h2 h1)
    · exact mlt_lex h1

/-- `for (rewind(); !finished(); next()) visit()`. -/
noncomputable def CryGen.loop (w : CWorld G) (p : CryGen G) : Option (List CBond × CryGen G) :=
  match p.rewind w with
  | none => none
  | some p1 => p1.collect w

/-- What the user can do with a crystal generator and its structure.  `resym` stands for every call that computes the
equivalent positions anew: the creation of another generator, or a query after an edit. -/
inductive COp (G : Geo)
  | anchor (a : Nat)
  | range (f l : Nat)
  | sites (s : List Nat)
  | iters (v : List Nat) (f l : Nat)
  | rmin (r : ℝ)
  | rmax (r : ℝ)
  | rewind
  | next
  | loop
  | edit (pos : List V3)
  | lattice (L : G.Lat)
  | resym (syms : List (List V3))

/-- One call. -/
noncomputable def cstep (s : CWorld G × CryGen G) : COp G → Option (CWorld G × CryGen G)
  | .anchor a => (s.2.selectAnchor s.1 a).map (s.1, ·)
  | .range f l => (s.2.g.selectRange f l).map fun g => (s.1, { s.2 with g := g })
  | .sites v => some (s.1, { s.2 with g := s.2.g.selectSites v })
  | .iters v f l => (s.2.g.selectIters v f l).map fun g => (s.1, { s.2 with g := g })
  | .rmin r => some (s.1, s.2.setRmin r)
  | .rmax r => some (s.1, s.2.setRmax r)
  | .rewind => (s.2.rewind s.1).map (s.1, ·)
  | .next => (s.2.next s.1).map (s.1, ·)
  | .loop => (s.2.loop s.1).map fun r => (s.1, r.2)
  | .edit p => some ({ s.1 with pos := p }, s.2)
  | .lattice L => some ({ s.1 with lat := L }, s.2)
  | .resym syms => some ({ s.1 with
                           syms := syms
                           ver := s.1.ver + 1 }, s.2)

/-- A history of calls. -/
noncomputable def crun (s : CWorld G × CryGen G) : List (COp G) → Option (CWorld G × CryGen G)
  | [] => some s
  | o :: os => match cstep s o with
    | none => none
    | some s' => crun s' os

end Verif.GenObj
