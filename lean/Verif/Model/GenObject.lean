import Verif.Model.BondGen
/-!
Model of a bond generator as an object that the user keeps: configuration calls, loop control and in-place
edits of the structure in any order (src/diffpy/srreal/BaseBondGenerator.cpp:33-268 and
PeriodicStructureAdapter.cpp:129-233).

`none` stands for a read outside an array or through a null pointer.  The iterators `msite_first`,
`msite_last` and `msite_current` are positions in the vector they point into; the user's own vector, when it
is given by iterators, is assumed to stay alive and unchanged.  Incrementing an iterator beyond the end of
its vector is formally undefined in C++, but it is an increment of a pointer and is taken as such here; only
a read through it is an error.  Site indices and positions are natural numbers, doubles are real numbers.
-/
namespace Verif.GenObj
open Verif.R3 Verif.BondGen Classical

/-- The fields of BaseBondGenerator (BaseBondGenerator.hpp:70-100): `msite_all`, the vector that the iterators
point into, the three iterators, `msite_anchor`, (`mr0`, `mrmin`, `mrmax`), (`mr1`, `mr01`, `mdistance`). -/
structure Gen where
  all : List Nat
  buf : List Nat
  first : Nat
  last : Nat
  cur : Nat
  anchor : Nat
  c : Cfg
  bd : Cur

/-- The constructor for a structure of `n` sites (BaseBondGenerator.cpp:33-48; the default `rmax` is zero,
BaseBondGenerator.hpp:30). -/
noncomputable def Gen.new (n : Nat) : Gen where
  all := List.range n
  buf := List.range n
  first := 0
  last := n
  cur := n
  anchor := 0
  c := ⟨V3.zero, 0, 0⟩
  bd := ⟨V3.zero, V3.zero, 0⟩

/-- `finished()` (BaseBondGenerator.cpp:72-75). -/
def Gen.finished (g : Gen) : Prop := g.last ≤ g.cur

/-- `setFinishedFlag()` (BaseBondGenerator.cpp:269-272). -/
def Gen.setFinished (g : Gen) : Gen := { g with cur := g.last }

/-- `selectAnchorSite(a)` (BaseBondGenerator.cpp:79-85); `pos` are the positions in the structure now. -/
noncomputable def Gen.selectAnchor (pos : List V3) (a : Nat) (g : Gen) : Option Gen :=
  match pos[a]? with
  | none => none
  | some r => some ({ g with
                      anchor := a
                      c := ⟨r, g.c.rmin, g.c.rmax⟩ }).setFinished

/-- `selectSiteRange(first, last)` (BaseBondGenerator.cpp:88-95): the iterators point into `msite_all`; outside
that vector the iterators are not valid. -/
def Gen.selectRange (f l : Nat) (g : Gen) : Option Gen :=
  if f ≤ g.all.length ∧ l ≤ g.all.length then
    some ({ g with
            buf := g.all
            first := f
            last := l }).setFinished
  else none

/-- `selectSites(selection)` (BaseBondGenerator.cpp:98-104). -/
def Gen.selectSites (s : List Nat) (g : Gen) : Gen :=
  ({ g with
     buf := s
     first := 0
     last := s.length }).setFinished

/-- `selectSites(first, last)` with iterators into the vector `v` (BaseBondGenerator.cpp:107-114). -/
def Gen.selectIters (v : List Nat) (f l : Nat) (g : Gen) : Option Gen :=
  if f ≤ v.length ∧ l ≤ v.length then
    some ({ g with
            buf := v
            first := f
            last := l }).setFinished
  else none

/-- `setRmin` (BaseBondGenerator.cpp:117-121). -/
noncomputable def Gen.setRmin (r : ℝ) (g : Gen) : Gen :=
  let g1 := if r ≠ g.c.rmin then g.setFinished else g
  { g1 with c := ⟨g1.c.r0, r, g1.c.rmax⟩ }

/-- `setRmax` (BaseBondGenerator.cpp:124-128). -/
noncomputable def Gen.setRmax (r : ℝ) (g : Gen) : Gen :=
  let g1 := if r ≠ g.c.rmax then g.setFinished else g
  { g1 with c := ⟨g1.c.r0, g1.c.rmin, r⟩ }

/-- `site1()` (BaseBondGenerator.cpp:151-154) reads through the iterator. -/
def Gen.site1 (g : Gen) : Option Nat := g.buf[g.cur]?

/-! ### Base generator -/

/-- `rewindSymmetry` (BaseBondGenerator.cpp:218-222). -/
noncomputable def rewindSym (pos : List V3) (g : Gen) : Option Gen :=
  match g.site1 with
  | none => none
  | some i =>
    match pos[i]? with
    | none => none
    | some p => some { g with bd := updateDistance g.c.r0 g.c.rmax g.bd p }

/-- `getNextBond` (BaseBondGenerator.cpp:225-231), `iterateSymmetry` being false (:212-215). -/
noncomputable def getNext (pos : List V3) (g : Gen) : Option Gen :=
  let g1 : Gen := { g with cur := g.cur + 1 }
  if g1.last ≤ g1.cur then some g1 else rewindSym pos g1

theorem rewindSym_shape {pos : List V3} {g g' : Gen} (h : rewindSym pos g = some g') :
    ∃ b, g' = { g with bd := b } := by
  unfold rewindSym at h
  split at h
  · cases h
  · split at h
    · cases h
    · cases h; exact ⟨_, rfl⟩

theorem getNext_shape {pos : List V3} {g g' : Gen} (h : getNext pos g = some g') :
    ∃ b, g' = { g with
                cur := g.cur + 1
                bd := b } := by
  unfold getNext at h
  dsimp only at h
  split at h
  · cases h; exact ⟨g.bd, rfl⟩
  · obtain ⟨b, hb⟩ := rewindSym_shape h
    exact ⟨b, hb⟩

/-- `advanceWhileInvalid` (BaseBondGenerator.cpp:244-251). -/
noncomputable def advance (pos : List V3) (g : Gen) : Option Gen :=
  if _h : g.last ≤ g.cur then some g
  else if badBond g.c g.bd.dist then
    match _hn : getNext pos g with
    | none => none
    | some g1 => advance pos g1
  else some g
termination_by g.last - g.cur
decreasing_by
  obtain ⟨b, rfl⟩ := getNext_shape _hn
  simp only
  omega

/-- `rewind()` (BaseBondGenerator.cpp:55-62). -/
noncomputable def rewind (pos : List V3) (g : Gen) : Option Gen :=
  let g1 : Gen := { g with cur := g.first }
  if g1.last ≤ g1.cur then some g1
  else
    match rewindSym pos g1 with
    | none => none
    | some g2 => advance pos g2

/-- `next()` (BaseBondGenerator.cpp:65-69). -/
noncomputable def next (pos : List V3) (g : Gen) : Option Gen :=
  match getNext pos g with
  | none => none
  | some g1 => advance pos g1

theorem advance_shape (pos : List V3) (g : Gen) : ∀ g', advance pos g = some g' →
    ∃ b k, g' = { g with
                  cur := g.cur + k
                  bd := b } := by
  induction hm : g.last - g.cur using Nat.strong_induction_on generalizing g with
  | _ n ih =>
    intro g' h
    unfold advance at h
    split at h
    · cases h; exact ⟨g.bd, 0, rfl⟩
    · rename_i hf
      split at h
      · split at h
        · cases h
        · rename_i g1 hn
          obtain ⟨b, rfl⟩ := getNext_shape hn
          obtain ⟨b', k, rfl⟩ := ih (g.last - (g.cur + 1)) (by omega) _ rfl _ h
          exact ⟨b', k + 1, by simp [Nat.add_assoc, Nat.add_comm 1 k]⟩
      · cases h; exact ⟨g.bd, 0, rfl⟩

theorem next_shape {pos : List V3} {g g' : Gen} (h : next pos g = some g') :
    ∃ b k, g' = { g with
                  cur := g.cur + 1 + k
                  bd := b } := by
  unfold next at h
  split at h
  · cases h
  · rename_i g1 hn
    obtain ⟨b, rfl⟩ := getNext_shape hn
    obtain ⟨b', k, rfl⟩ := advance_shape pos _ _ h
    exact ⟨b', k, rfl⟩

/-- The user's loop from an already rewound generator: `for (; !finished(); next()) visit()`, where the visit
reads `site1()`, `r1()`, `r01()` and `distance()`. -/
noncomputable def collect (pos : List V3) (g : Gen) : Option (List Bond × Gen) :=
  if _h : g.last ≤ g.cur then some ([], g)
  else
    match g.site1 with
    | none => none
    | some i =>
      match _hn : next pos g with
      | none => none
      | some g1 =>
        match collect pos g1 with
        | none => none
        | some (l, g') => some (⟨i, g.bd.r1, g.bd.r01, g.bd.dist⟩ :: l, g')
termination_by g.last - g.cur
decreasing_by
  obtain ⟨b, k, rfl⟩ := next_shape _hn
  simp only
  omega

/-- `for (rewind(); !finished(); next()) visit()`. -/
noncomputable def loop (pos : List V3) (g : Gen) : Option (List Bond × Gen) :=
  match rewind pos g with
  | none => none
  | some g1 => collect pos g1

/-- What the user can do with a generator and its structure; `edit` is an edit of the structure in place. -/
inductive Op
  | anchor (a : Nat)
  | range (f l : Nat)
  | sites (s : List Nat)
  | iters (v : List Nat) (f l : Nat)
  | rmin (r : ℝ)
  | rmax (r : ℝ)
  | rewind
  | next
  | loop
  | edit (pos : List V3)

/-- One call on the generator of a structure with positions `w.1`. -/
noncomputable def step (w : List V3 × Gen) : Op → Option (List V3 × Gen)
  | .anchor a => (w.2.selectAnchor w.1 a).map (w.1, ·)
  | .range f l => (w.2.selectRange f l).map (w.1, ·)
  | .sites s => some (w.1, w.2.selectSites s)
  | .iters v f l => (w.2.selectIters v f l).map (w.1, ·)
  | .rmin r => some (w.1, w.2.setRmin r)
  | .rmax r => some (w.1, w.2.setRmax r)
  | .rewind => (GenObj.rewind w.1 w.2).map (w.1, ·)
  | .next => (GenObj.next w.1 w.2).map (w.1, ·)
  | .loop => (GenObj.loop w.1 w.2).map fun r => (w.1, r.2)
  | .edit p => some (p, w.2)

/-- A history of calls. -/
noncomputable def run (w : List V3 × Gen) : List Op → Option (List V3 × Gen)
  | [] => some w
  | o :: os => match step w o with
    | none => none
    | some w' => run w' os

/-! ### Periodic generator -/

/-- What the periodic generator asks of a lattice: Cartesian coordinates of a lattice point, the points of
`PointsInSphere(rmin, rmax, L)` in order, the largest diagonal of the cell, and the position of a point moved
into the unit cell (Lattice.cpp; PointsInSphere.cpp). -/
structure Geo where
  Lat : Type
  Pt : Type
  cart : Lat → Pt → V3
  visits : Lat → ℝ → ℝ → List Pt
  diag : Lat → ℝ
  ucv : Lat → V3 → V3

variable {G : Geo}

/-- PeriodicStructureBondGenerator (PeriodicStructureAdapter.hpp): the base object, `mcartesian_positions_uc`,
`msphere` (all its points and those from the current one on; null is `none`) and `mrcsphere`. -/
structure PerGen (G : Geo) where
  g : Gen
  snap : List V3
  sphere : Option (List G.Pt × List G.Pt)
  rc : V3

/-- The structure that a periodic generator points to: its lattice and the positions of its atoms. -/
structure World (G : Geo) where
  lat : G.Lat
  pos : List V3

/-- The constructor (PeriodicStructureAdapter.cpp:135-150). -/
noncomputable def PerGen.new (w : World G) : PerGen G where
  g := Gen.new w.pos.length
  snap := w.pos.map (G.ucv w.lat)
  sphere := none
  rc := V3.zero

/-- `selectAnchorSite` (PeriodicStructureAdapter.cpp:172-176). -/
noncomputable def PerGen.selectAnchor (w : World G) (a : Nat) (p : PerGen G) : Option (PerGen G) :=
  match p.g.selectAnchor w.pos a with
  | none => none
  | some g1 =>
    match p.snap[a]? with
    | none => none
    | some r => some { p with g := { g1 with c := ⟨r, g1.c.rmin, g1.c.rmax⟩ } }

/-- `setRmin` (PeriodicStructureAdapter.cpp:179-184). -/
noncomputable def PerGen.setRmin (r : ℝ) (p : PerGen G) : PerGen G :=
  { p with
    sphere := if p.g.c.rmin ≠ r then none else p.sphere
    g := p.g.setRmin r }

/-- `setRmax` (PeriodicStructureAdapter.cpp:187-192). -/
noncomputable def PerGen.setRmax (r : ℝ) (p : PerGen G) : PerGen G :=
  { p with
    sphere := if p.g.c.rmax ≠ r then none else p.sphere
    g := p.g.setRmax r }

/-- `updater1` (PeriodicStructureAdapter.cpp:229-233). -/
noncomputable def PerGen.updater1 (p : PerGen G) : Option (PerGen G) :=
  match p.g.site1 with
  | none => none
  | some i =>
    match p.snap[i]? with
    | none => none
    | some q => some { p with
                       g := { p.g with
                              bd := updateDistance p.g.c.r0 p.g.c.rmax p.g.bd (V3.add p.rc q) } }

/-- `rewindSymmetry` (PeriodicStructureAdapter.cpp:206-212): the sphere is rewound through the pointer, the
lattice is the one that the structure has now. -/
noncomputable def PerGen.rewindSym (w : World G) (p : PerGen G) : Option (PerGen G) :=
  match p.sphere with
  | none => none
  | some (ts, _) => PerGen.updater1 { p with
                                      sphere := some (ts, ts)
                                      rc := match ts with
                                            | [] => V3.zero
                                            | t :: _ => G.cart w.lat t }

/-- `getNextBond` with `iterateSymmetry` (PeriodicStructureAdapter.cpp:196-203, :215-225); a finished sphere
stays finished (PointsInSphere.cpp:137-140, the index `m` never decreases). -/
noncomputable def PerGen.getNext (w : World G) (p : PerGen G) : Option (PerGen G) :=
  let p1 : PerGen G := { p with g := { p.g with cur := p.g.cur + 1 } }
  if p1.g.last ≤ p1.g.cur then
    match p1.sphere with
    | none => none
    | some (ts, rest) =>
      match rest.tail with
      | [] => some { p1 with
                     sphere := some (ts, [])
                     rc := V3.zero }
      | t :: more =>
        let p2 : PerGen G := { p1 with
                               sphere := some (ts, t :: more)
                               rc := G.cart w.lat t
                               g := { p1.g with cur := p1.g.first } }
        if p2.g.last ≤ p2.g.cur then some p2 else p2.updater1
  else p1.updater1

/-- The number of sphere points left. -/
def PerGen.left (p : PerGen G) : Nat :=
  match p.sphere with
  | none => 0
  | some (_, rest) => rest.tail.length

theorem PerGen.updater1_shape {p p' : PerGen G} (h : p.updater1 = some p') :
    ∃ b, p' = { p with g := { p.g with bd := b } } := by
  unfold PerGen.updater1 at h
  split at h
  · cases h
  · split at h
    · cases h
    · cases h; exact ⟨_, rfl⟩

theorem PerGen.getNext_dec {w : World G} {p p' : PerGen G} (h : p.getNext w = some p')
    (hf : ¬ p.g.last ≤ p.g.cur) :
    p'.left < p.left ∨ (p'.left = p.left ∧ p'.g.last - p'.g.cur < p.g.last - p.g.cur) := by
  unfold PerGen.getNext at h
  dsimp only at h
  split at h
  · rename_i hl
    split at h
    · cases h
    · rename_i ts rest hs
      split at h
      · rename_i ht
        cases h
        right
        have e : p.left = 0 := by unfold PerGen.left; rw [hs]; simp [ht]
        refine ⟨by rw [e]; rfl, ?_⟩
        simp only
        omega
      · rename_i t more ht
        have e : p.left = more.length + 1 := by unfold PerGen.left; rw [hs]; simp [ht]
        left
        split at h
        · cases h
          rw [e]; unfold PerGen.left; simp
        · obtain ⟨b, rfl⟩ := PerGen.updater1_shape h
          rw [e]; unfold PerGen.left; simp
  · obtain ⟨b, rfl⟩ := PerGen.updater1_shape h
    right
    refine ⟨rfl, ?_⟩
    simp only
    omega

/-- `advanceWhileInvalid` (BaseBondGenerator.cpp:244-251) with the periodic `getNextBond`. -/
noncomputable def PerGen.advance (w : World G) (p : PerGen G) : Option (PerGen G) :=
  if _h : p.g.last ≤ p.g.cur then some p
  else if badBond p.g.c p.g.bd.dist then
    match _hn : p.getNext w with
    | none => none
    | some p1 => PerGen.advance w p1
  else some p
termination_by (p.left, p.g.last - p.g.cur)
decreasing_by
  rcases PerGen.getNext_dec _hn _h with h | ⟨h1, h2⟩
  · exact Prod.Lex.left _ _ h
  · rw [h1]; exact Prod.Lex.right _ h2

/-- The sphere is created when there is none, with the lattice and the limits of now, and kept otherwise
(PeriodicStructureAdapter.cpp:158-165). -/
noncomputable def PerGen.withSphere (w : World G) (p : PerGen G) : PerGen G :=
  match p.sphere with
  | some _ => p
  | none =>
    let ts := G.visits w.lat (p.g.c.rmin - G.diag w.lat) (p.g.c.rmax + G.diag w.lat)
    { p with sphere := some (ts, ts) }

/-- `rewind()` (PeriodicStructureAdapter.cpp:154-169; BaseBondGenerator.cpp:55-62). -/
noncomputable def PerGen.rewind (w : World G) (p : PerGen G) : Option (PerGen G) :=
  let p0 : PerGen G := p.withSphere w
  let p1 : PerGen G := { p0 with g := { p0.g with cur := p0.g.first } }
  if p1.g.last ≤ p1.g.cur then some p1
  else
    match p1.rewindSym w with
    | none => none
    | some p2 => p2.advance w

/-- `next()` (BaseBondGenerator.cpp:65-69). -/
noncomputable def PerGen.next (w : World G) (p : PerGen G) : Option (PerGen G) :=
  match p.getNext w with
  | none => none
  | some p1 => p1.advance w

theorem PerGen.advance_le (w : World G) (p : PerGen G) : ∀ p', p.advance w = some p' →
    Prod.Lex (· < ·) (· < ·) (p'.left, p'.g.last - p'.g.cur) (p.left, p.g.last - p.g.cur) ∨ p' = p := by
  fun_induction PerGen.advance w p with
  | case1 p h => intro p' h'; cases h'; exact Or.inr rfl
  | case2 p h hb hn => intro p' h'; cases h'
  | case3 p h hb p1 hn ih =>
    intro p' h'
    left
    have h1 : Prod.Lex (· < ·) (· < ·) (p1.left, p1.g.last - p1.g.cur) (p.left, p.g.last - p.g.cur) := by
      rcases PerGen.getNext_dec hn h with h | ⟨h1, h2⟩
      · exact Prod.Lex.left _ _ h
      · rw [h1]; exact Prod.Lex.right _ h2
    rcases ih p' h' with h2 | rfl
    · rw [Prod.lex_def] at h1 h2 ⊢
      simp only at h1 h2 ⊢
      omega
    · exact h1
  | case4 p h hb => intro p' h'; cases h'; exact Or.inr rfl

/-- The user's loop from an already rewound generator. -/
noncomputable def PerGen.collect (w : World G) (p : PerGen G) : Option (List Bond × PerGen G) :=
  if _h : p.g.last ≤ p.g.cur then some ([], p)
  else
    match p.g.site1 with
    | none => none
    | some i =>
      match _hn : p.next w with
      | none => none
      | some p1 =>
        match PerGen.collect w p1 with
        | none => none
        | some (l, p') => some (⟨i, p.g.bd.r1, p.g.bd.r01, p.g.bd.dist⟩ :: l, p')
termination_by (p.left, p.g.last - p.g.cur)
decreasing_by
  unfold PerGen.next at _hn
  split at _hn
  · cases _hn
  · rename_i q hq
    have h1 : Prod.Lex (· < ·) (· < ·) (q.left, q.g.last - q.g.cur) (p.left, p.g.last - p.g.cur) := by
      rcases PerGen.getNext_dec hq _h with h | ⟨h1, h2⟩
      · exact Prod.Lex.left _ _ h
      · rw [h1]; exact Prod.Lex.right _ h2
    rcases PerGen.advance_le w q p1 _hn with h2 | rfl
    · rw [Prod.lex_def] at h1 h2 ⊢
      simp only at h1 h2 ⊢
      omega
    · exact h1

/-- `for (rewind(); !finished(); next()) visit()`. -/
noncomputable def PerGen.loop (w : World G) (p : PerGen G) : Option (List Bond × PerGen G) :=
  match p.rewind w with
  | none => none
  | some p1 => p1.collect w

/-- What the user can do with a periodic generator and its structure. -/
inductive POp (G : Geo)
  | anchor (a : Nat)
  | range (f l : Nat)
  | sites (s : List Nat)
  | iters (v : List Nat) (f l : Nat)
  | rmin (r : ℝ)
  | rmax (r : ℝ)
  | rewind
  | next
  | loop
  | edit (pos : List V3)
  | lattice (L : G.Lat)

/-- One call. -/
noncomputable def pstep (s : World G × PerGen G) : POp G → Option (World G × PerGen G)
  | .anchor a => (s.2.selectAnchor s.1 a).map (s.1, ·)
  | .range f l => (s.2.g.selectRange f l).map fun g => (s.1, { s.2 with g := g })
  | .sites v => some (s.1, { s.2 with g := s.2.g.selectSites v })
  | .iters v f l => (s.2.g.selectIters v f l).map fun g => (s.1, { s.2 with g := g })
  | .rmin r => some (s.1, s.2.setRmin r)
  | .rmax r => some (s.1, s.2.setRmax r)
  | .rewind => (s.2.rewind s.1).map (s.1, ·)
  | .next => (s.2.next s.1).map (s.1, ·)
  | .loop => (s.2.loop s.1).map fun r => (s.1, r.2)
  | .edit p => some ({ s.1 with pos := p }, s.2)
  | .lattice L => some ({ s.1 with lat := L }, s.2)

/-- A history of calls. -/
noncomputable def prun (s : World G × PerGen G) : List (POp G) → Option (World G × PerGen G)
  | [] => some s
  | o :: os => match pstep s o with
    | none => none
    | some s' => prun s' os

end Verif.GenObj
