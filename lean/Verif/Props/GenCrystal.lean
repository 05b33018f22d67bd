import Verif.Lemmas.GenCrystal
import Verif.Props.GenObject
import Verif.Props.Crystal
/-! C78, crystal generator: a bond generator of a crystal that the user keeps and drives by any sequence of calls. -/
namespace Verif.GenObj
open Verif.R3 Verif.BondGen Classical

variable {G : Geo}

/-! ### Specification -/

/-- The request made to a crystal generator: the structure now, the anchor and the place that it had when it was
selected, the limits, the selected sites and the lattice points in use. -/
structure CAsked (G : Geo) where
  world : CWorld G
  site0 : Nat
  r0 : V3
  rmin : ℝ
  rmax : ℝ
  sel : List Nat
  pts : Option (List G.Pt)

/-- Before any call. -/
noncomputable def casked0 (w : CWorld G) : CAsked G where
  world := w
  site0 := 0
  r0 := V3.zero
  rmin := 0
  rmax := 0
  sel := List.range w.pos.length
  pts := none

/-- The lattice points of the next loop: those in use, or else those for the limits and the lattice now. -/
noncomputable def CAsked.points (a : CAsked G) : List G.Pt :=
  a.pts.getD (G.visits a.world.lat (a.rmin - G.diag a.world.lat) (a.rmax + G.diag a.world.lat))

/-- The effect of one call on the request; the anchor is the first equivalent position of the site. -/
noncomputable def cask (a : CAsked G) : COp G → CAsked G
  | .anchor k => { a with
                   site0 := k
                   r0 := (a.world.syms.getD k []).getD 0 V3.zero }
  | .range f l => { a with sel := (List.range l).drop f }
  | .sites s => { a with sel := s }
  | .iters v f l => { a with sel := (v.take l).drop f }
  | .rmin r => { a with
                 rmin := r
                 pts := if r = a.rmin then a.pts else none }
  | .rmax r => { a with
                 rmax := r
                 pts := if r = a.rmax then a.pts else none }
  | .rewind => { a with pts := some a.points }
  | .loop => { a with pts := some a.points }
  | .next => a
  | .edit p => { a with world := { a.world with pos := p } }
  | .lattice L => { a with world := { a.world with lat := L } }
  | .resym s => { a with world := { a.world with
                                    syms := s
                                    ver := a.world.ver + 1 } }

/-- The request after a history. -/
noncomputable def casked (w : CWorld G) (ops : List (COp G)) : CAsked G := ops.foldl cask (casked0 w)

/-- The bonds that the request describes, each with the atom whose displacement tensor `Ucartesian1()` must give: for
every selected site, every equivalent position of it and every lattice point the bond to that image, if it is in
range. -/
noncomputable def CAsked.bonds (a : CAsked G) : List CBond :=
  a.sel.flatMap fun j => (a.world.syms.getD j []).zipIdx.flatMap fun e =>
    (if a.points = [] then [V3.zero] else a.points.map (G.cart a.world.lat)).flatMap fun t =>
      (specBond ⟨a.r0, a.rmin, a.rmax⟩ j (V3.add t e.1)).map fun b => ⟨b, some (some (j, e.2))⟩

/-! ### Theorems -/

/-- The generator holds the request `a`. -/
structure CHolds (n : Nat) (a : CAsked G) (s : CWorld G × CryGen G) : Prop where
  hworld : s.1 = a.world
  hsite : s.2.g.anchor = a.site0
  hc : s.2.g.c = ⟨a.r0, a.rmin, a.rmax⟩
  hsel : s.2.g.sel = a.sel
  hall : s.2.g.all = List.range n
  hlast : s.2.g.last ≤ s.2.g.buf.length
  hpts : s.2.sphere.map Prod.fst = a.pts

theorem CHolds.points {n : Nat} {a : CAsked G} {s : CWorld G × CryGen G} (h : CHolds n a s) :
    s.2.points s.1 = a.points := by
  unfold CryGen.points CAsked.points
  rw [← h.hpts, h.hworld, h.hc]
  cases s.2.sphere with
  | none => rfl
  | some x => rfl

theorem cholds_new (w : CWorld G) : CHolds w.pos.length (casked0 w) (w, CryGen.new w) where
  hworld := rfl
  hsite := rfl
  hc := rfl
  hsel := by
    show ((List.range w.pos.length).take w.pos.length).drop 0 = List.range w.pos.length
    rw [List.drop_zero, List.take_of_length_le (by simp)]
  hall := rfl
  hlast := by simp [CryGen.new, Gen.new]
  hpts := rfl

/-- A move changes only the position in the loop. -/
def CMoved (p p' : CryGen G) : Prop :=
  ∃ b k rest rc n t, p' = { p with
    sphere := p.sphere.map fun x => (x.1, rest)
    rc := rc
    symidx := n
    ptr := t
    g := { p.g with
           cur := k
           bd := b } }

theorem CMoved.refl (p : CryGen G) : CMoved p p := by
  cases hs : p.sphere with
  | none => exact ⟨p.g.bd, p.g.cur, [], p.rc, p.symidx, p.ptr, by cases p; simp_all⟩
  | some x => exact ⟨p.g.bd, p.g.cur, x.2, p.rc, p.symidx, p.ptr, by cases p; simp_all⟩

theorem CMoved.trans {p q r : CryGen G} (h1 : CMoved p q) (h2 : CMoved q r) : CMoved p r := by
  obtain ⟨b, k, rest, rc, n, t, rfl⟩ := h1
  obtain ⟨b', k', rest', rc', n', t', rfl⟩ := h2
  refine ⟨b', k', rest', rc', n', t', ?_⟩
  cases p with
  | mk g sphere rc0 si pt => cases sphere <;> rfl

theorem cupdater1_moved {w : CWorld G} {p p' : CryGen G} (h : p.updater1 w = some p') : CMoved p p' := by
  obtain ⟨b, t, rfl⟩ := CryGen.updater1_shape h
  cases hs : p.sphere with
  | none => exact ⟨b, p.g.cur, [], p.rc, p.symidx, t, by cases p; simp_all⟩
  | some x => exact ⟨b, p.g.cur, x.2, p.rc, p.symidx, t, by cases p; simp_all⟩

theorem crewindSphere_moved {w : CWorld G} {p p' : CryGen G} (h : p.rewindSphere w = some p') : CMoved p p' := by
  obtain ⟨b, t, ts, old, rc, hs, rfl⟩ := CryGen.rewindSphere_shape h
  exact ⟨b, p.g.cur, ts, rc, p.symidx, t, by rw [hs]; rfl⟩

theorem cgetNext_moved {w : CWorld G} {p p' : CryGen G} (h : p.getNext w = some p') : CMoved p p' := by
  unfold CryGen.getNext at h
  split at h
  · cases h
  · rename_i ts rest hs
    split at h
    · rename_i t more ht
      have hm : CMoved p { p with
          sphere := some (ts, t :: more)
          rc := G.cart w.lat t } :=
        ⟨p.g.bd, p.g.cur, t :: more, _, p.symidx, p.ptr, by rw [hs]; rfl⟩
      exact hm.trans (cupdater1_moved h)
    · split at h
      · cases h
      · dsimp only at h
        split at h
        · have hm : CMoved p { p with
              sphere := some (ts, [])
              rc := V3.zero
              symidx := p.symidx + 1
              g := { p.g with cur := p.g.cur + 1 } } :=
            ⟨p.g.bd, p.g.cur + 1, [], _, p.symidx + 1, p.ptr, by rw [hs]; rfl⟩
          split at h
          · cases h; exact hm
          · unfold CryGen.rewindSym at h
            have hm2 : CMoved p { p with
              sphere := some (ts, [])
              rc := V3.zero
              symidx := 0
              g := { p.g with cur := p.g.cur + 1 } } :=
              ⟨p.g.bd, p.g.cur + 1, [], _, 0, p.ptr, by rw [hs]; rfl⟩
            exact hm2.trans (crewindSphere_moved h)
        · have hm : CMoved p { p with
              sphere := some (ts, [])
              rc := V3.zero
              symidx := p.symidx + 1 } :=
            ⟨p.g.bd, p.g.cur, [], _, p.symidx + 1, p.ptr, by rw [hs]; rfl⟩
          exact hm.trans (crewindSphere_moved h)

theorem cadvance_moved (w : CWorld G) (p : CryGen G) : ∀ p', p.advance w = some p' → CMoved p p' := by
  fun_induction CryGen.advance w p with
  | case1 p h => intro p' h'; cases h'; exact CMoved.refl _
  | case2 p h hb hn => intro p' h'; cases h'
  | case3 p h hb p1 hn ih => intro p' h'; exact (cgetNext_moved hn).trans (ih p' h')
  | case4 p h hb => intro p' h'; cases h'; exact CMoved.refl _

theorem cnext_moved {w : CWorld G} {p p' : CryGen G} (h : p.next w = some p') : CMoved p p' := by
  unfold CryGen.next at h
  split at h
  · cases h
  · rename_i p1 h1
    exact (cgetNext_moved h1).trans (cadvance_moved w _ _ h)

theorem crewind_moved {w : CWorld G} {p p' : CryGen G} (h : p.rewind w = some p') :
    CMoved { p with sphere := some (p.points w, []) } p' := by
  unfold CryGen.rewind at h
  dsimp only at h
  obtain ⟨rest, e⟩ := cwithSphere_eq w p
  rw [e] at h
  dsimp only at h
  split at h
  · cases h
    exact ⟨p.g.bd, p.g.first, rest, p.rc, p.symidx, p.ptr, rfl⟩
  · split at h
    · cases h
    · rename_i p2 h2
      unfold CryGen.rewindSym at h2
      dsimp only at h2
      have := (crewindSphere_moved h2).trans (cadvance_moved w _ _ h)
      obtain ⟨b, k, rest', rc, n, t, rfl⟩ := this
      exact ⟨b, k, rest', rc, n, t, rfl⟩

theorem CHolds.moved {n : Nat} {a : CAsked G} {w : CWorld G} {p p' : CryGen G} (h : CHolds n a (w, p))
    (hm : CMoved p p') : CHolds n a (w, p') := by
  obtain ⟨b, k, rest, rc, m, t, rfl⟩ := hm
  refine ⟨h.hworld, h.hsite, h.hc, h.hsel, h.hall, h.hlast, ?_⟩
  have := h.hpts
  simp only at this ⊢
  rw [← this]
  cases p.sphere with
  | none => rfl
  | some x => rfl

theorem cholds_step {n : Nat} {a : CAsked G} {s s' : CWorld G × CryGen G} (h : CHolds n a s) (o : COp G)
    (hs : cstep s o = some s') : CHolds n (cask a o) s' := by
  obtain ⟨w, p⟩ := s
  have hcc := h.hc
  have hww := h.hworld
  have hpp := h.hpts
  simp only at hcc hww hpp
  cases o with
  | anchor k =>
    simp only [cstep, CryGen.selectAnchor, Option.map_eq_some_iff] at hs
    obtain ⟨p', h1, rfl⟩ := hs
    unfold Gen.selectAnchor at h1
    split at h1
    · cases h1
    · rename_i g1 hg1
      split at hg1
      · cases hg1
      · cases hg1
        split at h1
        · cases h1
        · rename_i sa hsa
          split at h1
          · cases h1
          · rename_i q hq
            cases h1
            refine ⟨h.hworld, rfl, ?_, h.hsel, h.hall, h.hlast, h.hpts⟩
            simp only [cask, Gen.setFinished, hcc]
            rw [← hww]
            simp only [List.getD, hsa, hq, Option.getD_some]
  | range f l =>
    simp only [cstep, Gen.selectRange] at hs
    split at hs
    · rename_i hfl
      cases hs
      have ha := h.hall
      simp only at ha
      rw [ha, List.length_range] at hfl
      refine ⟨h.hworld, h.hsite, h.hc, ?_, h.hall, ?_, h.hpts⟩
      · simp only [Gen.sel, Gen.setFinished, cask, ha]
        rw [List.take_range, Nat.min_eq_left hfl.2]
      · simp only [Gen.setFinished, ha, List.length_range]; exact hfl.2
    · cases hs
  | sites v =>
    simp only [cstep, Gen.selectSites] at hs
    cases hs
    exact ⟨h.hworld, h.hsite, h.hc, by simp [Gen.sel, Gen.setFinished, cask], h.hall, Nat.le_refl _, h.hpts⟩
  | iters v f l =>
    simp only [cstep, Gen.selectIters] at hs
    split at hs
    · rename_i hfl
      cases hs
      exact ⟨h.hworld, h.hsite, h.hc, rfl, h.hall, hfl.2, h.hpts⟩
    · cases hs
  | rmin r =>
    simp only [cstep, CryGen.setRmin, Gen.setRmin] at hs
    cases hs
    refine ⟨h.hworld, ?_, ?_, ?_, ?_, ?_, ?_⟩
    · simp only; split <;> exact h.hsite
    · simp only; split <;> simp [cask, Gen.setFinished, hcc]
    · simp only; split <;> exact h.hsel
    · simp only; split <;> exact h.hall
    · simp only; split <;> exact h.hlast
    · simp only [cask, hcc]
      by_cases e : r = a.rmin
      · rw [if_pos e, if_neg (not_not.2 e.symm)]; exact hpp
      · rw [if_neg e, if_pos (Ne.symm e)]; rfl
  | rmax r =>
    simp only [cstep, CryGen.setRmax, Gen.setRmax] at hs
    cases hs
    refine ⟨h.hworld, ?_, ?_, ?_, ?_, ?_, ?_⟩
    · simp only; split <;> exact h.hsite
    · simp only; split <;> simp [cask, Gen.setFinished, hcc]
    · simp only; split <;> exact h.hsel
    · simp only; split <;> exact h.hall
    · simp only; split <;> exact h.hlast
    · simp only [cask, hcc]
      by_cases e : r = a.rmax
      · rw [if_pos e, if_neg (not_not.2 e.symm)]; exact hpp
      · rw [if_neg e, if_pos (Ne.symm e)]; rfl
  | rewind =>
    simp only [cstep, Option.map_eq_some_iff] at hs
    obtain ⟨p', h1, rfl⟩ := hs
    have h0 : CHolds n (cask a .rewind) (w, { p with sphere := some (p.points w, []) }) := by
      refine ⟨h.hworld, h.hsite, h.hc, h.hsel, h.hall, h.hlast, ?_⟩
      simp only [cask, Option.map_some]
      rw [← h.points]
    exact h0.moved (crewind_moved h1)
  | next =>
    simp only [cstep, Option.map_eq_some_iff] at hs
    obtain ⟨p', h1, rfl⟩ := hs
    exact h.moved (cnext_moved h1)
  | loop =>
    simp only [cstep, Option.map_eq_some_iff] at hs
    obtain ⟨r, h1, rfl⟩ := hs
    by_cases hin : ∀ j ∈ p.g.sel, HasSym w j
    · obtain ⟨b, k, rest, rc, m, t, e, _⟩ := (cloop_exact w p h.hlast).1 hin
      rw [e] at h1
      cases h1
      refine ⟨h.hworld, h.hsite, h.hc, h.hsel, h.hall, h.hlast, ?_⟩
      simp only [cask, Option.map_some]
      rw [← h.points]
    · push Not at hin
      rw [(cloop_exact w p h.hlast).2 hin] at h1
      cases h1
  | edit q =>
    simp only [cstep] at hs
    cases hs
    exact ⟨by simp only [cask, hww], h.hsite, h.hc, h.hsel, h.hall, h.hlast, h.hpts⟩
  | lattice L =>
    simp only [cstep] at hs
    cases hs
    exact ⟨by simp only [cask, hww], h.hsite, h.hc, h.hsel, h.hall, h.hlast, h.hpts⟩
  | resym q =>
    simp only [cstep] at hs
    cases hs
    exact ⟨by simp only [cask, hww], h.hsite, h.hc, h.hsel, h.hall, h.hlast, h.hpts⟩

theorem cholds_run {n : Nat} (ops : List (COp G)) : ∀ {a : CAsked G} {s s' : CWorld G × CryGen G}, CHolds n a s →
    crun s ops = some s' → CHolds n (ops.foldl cask a) s' := by
  induction ops with
  | nil => intro a s s' h hr; cases hr; exact h
  | cons o os ih =>
    intro a s s' h hr
    simp only [crun] at hr
    split at hr
    · cases hr
    · rename_i s1 h1
      exact ih (cholds_step h o h1) hr

/-- **C78**, crystal: after any history a new loop visits exactly the bonds that the request describes, at every bond
`Ucartesian1()` is that of the equivalent atom at the end of the bond, and the loop ends finished; it reads outside
an array exactly when a selected site has no equivalent positions now. -/
theorem crystal_loop_after_any_history (w0 : CWorld G) (ops : List (COp G)) (w : CWorld G) (p : CryGen G)
    (h : crun (w0, CryGen.new w0) ops = some (w, p)) :
    ((∀ j ∈ (casked w0 ops).sel, w.syms.getD j [] ≠ []) →
      ∃ p', p.loop w = some ((casked w0 ops).bonds, p') ∧ p'.g.finished) ∧
    ((∃ j ∈ (casked w0 ops).sel, w.syms.getD j [] = []) → p.loop w = none) := by
  have hsym : ∀ j, HasSym w j ↔ w.syms.getD j [] ≠ [] := by
    intro j
    unfold HasSym
    rw [List.getD]
    cases hj : w.syms[j]? with
    | none => simp
    | some sa =>
      cases sa with
      | nil => simp
      | cons x xs => simp
  have hh := cholds_run ops (cholds_new w0) h
  obtain ⟨h1, h2⟩ := cloop_exact w p hh.hlast
  have hsel : p.g.sel = (casked w0 ops).sel := hh.hsel
  rw [hsel] at h1 h2
  refine ⟨fun hin => ?_, fun ⟨j, hj, he⟩ => h2 ⟨j, hj, fun hc => (hsym j).1 hc he⟩⟩
  obtain ⟨b, k, rest, rc, m, t, e, hk⟩ := h1 fun j hj => (hsym j).2 (hin j hj)
  refine ⟨{ p with
            sphere := some (p.points w, rest)
            rc := rc
            symidx := m
            ptr := t
            g := { p.g with
                   cur := k
                   bd := b } }, ?_, hk⟩
  rw [e]
  have hp : p.points w = (casked w0 ops).points := hh.points
  have hc : p.g.c = _ := hh.hc
  have hw : w = (casked w0 ops).world := hh.hworld
  have : (casked w0 ops).sel.flatMap
        (fun j => symFrom p.g.c (ccartPts w (p.points w)) j (w.syms.getD j []) 0) = (casked w0 ops).bonds := by
    unfold CAsked.bonds symFrom ccartPts specC
    rw [hp, hc]
    simp only [List.drop_zero]
    rw [hw]
    rfl
  rw [this]

/-- **C78**, crystal: while the lattice is not changed, the lattice points are always those for the limits of now. -/
theorem crystal_points_current (w0 : CWorld G) (ops : List (COp G)) (h : ∀ L, COp.lattice L ∉ ops) :
    (casked w0 ops).world.lat = w0.lat ∧
    (casked w0 ops).points = G.visits w0.lat ((casked w0 ops).rmin - G.diag w0.lat)
      ((casked w0 ops).rmax + G.diag w0.lat) := by
  let Inv : CAsked G → Prop := fun a => a.world.lat = w0.lat ∧
    (a.pts = none ∨ a.pts = some (G.visits w0.lat (a.rmin - G.diag w0.lat) (a.rmax + G.diag w0.lat)))
  have hpt : ∀ a, Inv a → a.points = G.visits w0.lat (a.rmin - G.diag w0.lat) (a.rmax + G.diag w0.lat) := by
    rintro a ⟨h1, h2⟩
    unfold CAsked.points
    rcases h2 with h2 | h2 <;> rw [h2]
    · rw [Option.getD_none, h1]
    · rfl
  have key : ∀ (ops : List (COp G)) (a : CAsked G), (∀ L, COp.lattice L ∉ ops) → Inv a →
      Inv (ops.foldl cask a) := by
    intro ops
    induction ops with
    | nil => intro a _ ha; exact ha
    | cons o os ih =>
      intro a h ha
      rw [List.foldl_cons]
      refine ih _ (fun L hL => h L (List.mem_cons_of_mem _ hL)) ?_
      cases o with
      | lattice L => exact absurd (by simp) (h L)
      | rmin r =>
        refine ⟨ha.1, ?_⟩
        simp only [cask]
        by_cases e : r = a.rmin
        · rw [if_pos e, e]; exact ha.2
        · rw [if_neg e]; exact Or.inl rfl
      | rmax r =>
        refine ⟨ha.1, ?_⟩
        simp only [cask]
        by_cases e : r = a.rmax
        · rw [if_pos e, e]; exact ha.2
        · rw [if_neg e]; exact Or.inl rfl
      | rewind => exact ⟨ha.1, Or.inr (congrArg some (hpt a ha))⟩
      | loop => exact ⟨ha.1, Or.inr (congrArg some (hpt a ha))⟩
      | _ => exact ha
  have hi := key ops (casked0 w0) h ⟨rfl, Or.inl rfl⟩
  exact ⟨hi.1, hpt _ hi⟩

/-- The generator stands at equivalent atom `k` of site `i`, and its pointer is to the tensor of that atom. -/
def AtAtom (w : CWorld G) (p : CryGen G) (i k : Nat) : Prop :=
  p.g.site1 = some i ∧ p.ucart1 w = some (some (i, k)) ∧
    ∃ sa q, w.syms[i]? = some sa ∧ sa[k]? = some q ∧ p.g.bd.r1 = V3.add p.rc q

theorem cupdater1_at {w : CWorld G} {p p' : CryGen G} (h : p.updater1 w = some p') : ∃ i, AtAtom w p' i p.symidx := by
  unfold CryGen.updater1 at h
  split at h
  · cases h
  · rename_i i sa hh
    split at h
    · cases h
    · rename_i q hq
      cases h
      unfold CryGen.here at hh
      split at hh
      · cases hh
      · rename_i i' hi'
        rw [Option.map_eq_some_iff] at hh
        obtain ⟨sa', hs, e⟩ := hh
        cases e
        refine ⟨i, hi', ?_, sa, q, hs, hq, ?_⟩
        · simp [CryGen.ucart1]
        · unfold updateDistance
          dsimp only
          split
          · rfl
          · split
            · rfl
            · split <;> rfl

theorem cgetNext_at {w : CWorld G} {p p' : CryGen G} (h : p.getNext w = some p') (hf : ¬ p'.g.finished) :
    ∃ i k, AtAtom w p' i k := by
  unfold CryGen.getNext at h
  split at h
  · cases h
  · split at h
    · obtain ⟨i, hi⟩ := cupdater1_at h; exact ⟨i, _, hi⟩
    · split at h
      · cases h
      · dsimp only at h
        split at h
        · split at h
          · rename_i hfin; cases h; exact absurd hfin hf
          · unfold CryGen.rewindSym CryGen.rewindSphere at h
            split at h
            · cases h
            · obtain ⟨i, hi⟩ := cupdater1_at h; exact ⟨i, _, hi⟩
        · unfold CryGen.rewindSphere at h
          split at h
          · cases h
          · obtain ⟨i, hi⟩ := cupdater1_at h; exact ⟨i, _, hi⟩

theorem cadvance_at (w : CWorld G) (p : CryGen G) : (∃ i k, AtAtom w p i k) → ∀ p', p.advance w = some p' →
    ¬ p'.g.finished → ∃ i k, AtAtom w p' i k := by
  fun_induction CryGen.advance w p with
  | case1 p h => intro hp p' h' _; cases h'; exact hp
  | case2 p h hb hn => intro _ p' h'; cases h'
  | case3 p h hb p1 hn ih =>
    intro _ p' h' hf
    by_cases hf1 : p1.g.last ≤ p1.g.cur
    · rw [cadvance_fin hf1] at h'
      cases h'
      exact absurd hf1 hf
    · exact ih (cgetNext_at hn hf1) p' h' hf
  | case4 p h hb => intro hp p' h' _; cases h'; exact hp

/-- **C78**, crystal: after `rewind()` or `next()` that does not end the loop, `Ucartesian1()` gives the tensor of the
equivalent atom at the end of the bond, whatever happened before, also when the equivalent positions were computed
anew in the meantime. -/
theorem crystal_ucartesian1_valid (w : CWorld G) (p p' : CryGen G)
    (h : p.rewind w = some p' ∨ p.next w = some p') (hf : ¬ p'.g.finished) :
    ∃ i k sa q, p'.g.site1 = some i ∧ p'.ucart1 w = some (some (i, k)) ∧ w.syms[i]? = some sa ∧ sa[k]? = some q ∧
      p'.g.bd.r1 = V3.add p'.rc q := by
  have key : ∃ i k, AtAtom w p' i k := by
    rcases h with h | h
    · unfold CryGen.rewind at h
      dsimp only at h
      split at h
      · rename_i hfin; cases h; exact absurd hfin hf
      · split at h
        · cases h
        · rename_i p2 h2
          refine cadvance_at w p2 ?_ _ h hf
          unfold CryGen.rewindSym CryGen.rewindSphere at h2
          split at h2
          · cases h2
          · obtain ⟨i, hi⟩ := cupdater1_at h2; exact ⟨i, _, hi⟩
    · unfold CryGen.next at h
      split at h
      · cases h
      · rename_i p1 h1
        by_cases hf1 : p1.g.last ≤ p1.g.cur
        · rw [cadvance_fin hf1] at h
          cases h
          exact absurd hf1 hf
        · exact cadvance_at w p1 (cgetNext_at h1 hf1) _ h hf
  obtain ⟨i, k, h1, h2, sa, q, h3, h4, h5⟩ := key
  exact ⟨i, k, sa, q, h1, h2, h3, h4, h5⟩

/-- **C78** (defect), crystal: when the equivalent positions are computed anew inside a loop, for example because another
generator is created for the same structure, `Ucartesian1()` and `msd()` read freed memory until the next `next()`
or `rewind()`, even if nothing has changed in the structure. -/
theorem second_generator_inside_loop_bug (w : CWorld G) (p p' : CryGen G)
    (h : p.rewind w = some p' ∨ p.next w = some p') (hf : ¬ p'.g.finished) :
    ∃ w', cstep (w, p') (.resym w.syms) = some (w', p') ∧ w'.lat = w.lat ∧ w'.pos = w.pos ∧ w'.syms = w.syms ∧
      p'.ucart1 w' = none := by
  obtain ⟨i, k, _, _, _, h2, _⟩ := crystal_ucartesian1_valid w p p' h hf
  refine ⟨_, rfl, rfl, rfl, rfl, ?_⟩
  unfold CryGen.ucart1 at h2 ⊢
  split at h2
  · cases h2
  · rename_i v i' k' hp
    split at h2
    · rename_i hv
      dsimp only
      rw [if_neg (by omega)]
    · cases h2

/-- **C78** (defect), crystal: `next()` on a finished generator that iterates over all sites, or over a selection by
`selectSites`, always reads past the end of the list of sites or uses a null pointer; for a plain generator it is
harmless (`finished_stays`). -/
theorem crystal_next_when_finished_bug (w : CWorld G) (p : CryGen G) (hf : p.g.finished)
    (hl : p.g.last = p.g.buf.length) : p.next w = none := by
  have hs : p.g.site1 = none := by
    unfold Gen.site1
    apply List.getElem?_eq_none
    rw [← hl]; exact hf
  unfold CryGen.next CryGen.getNext
  cases hsp : p.sphere with
  | none => rfl
  | some x =>
    obtain ⟨ts, rest⟩ := x
    dsimp only
    cases ht : rest.tail with
    | cons t more =>
      have : CryGen.updater1 w { p with
          sphere := some (ts, t :: more)
          rc := G.cart w.lat t } = none := by
        unfold CryGen.updater1 CryGen.here
        simp only [hs]
      dsimp only
      rw [this]
    | nil =>
      have : p.here w = none := by unfold CryGen.here; rw [hs]
      dsimp only
      rw [this]

/-- **C78** (defect), crystal: so a selection of the anchor or a new limit inside a `for` loop over all sites makes the
`next()` of the loop undefined, although `finished()` is true. -/
theorem crystal_configuration_inside_loop_bug (w w' : CWorld G) (p p' : CryGen G)
    (hl : p.g.last = p.g.buf.length) :
    (∀ a, cstep (w, p) (.anchor a) = some (w', p') → p'.g.finished ∧ p'.next w' = none) ∧
    (∀ r, r ≠ p.g.c.rmin → cstep (w, p) (.rmin r) = some (w', p') → p'.g.finished ∧ p'.next w' = none) ∧
    (∀ r, r ≠ p.g.c.rmax → cstep (w, p) (.rmax r) = some (w', p') → p'.g.finished ∧ p'.next w' = none) ∧
    (∀ s, cstep (w, p) (.sites s) = some (w', p') → p'.g.finished ∧ p'.next w' = none) := by
  refine ⟨?_, ?_, ?_, ?_⟩
  · intro a h
    simp only [cstep, CryGen.selectAnchor, Option.map_eq_some_iff] at h
    obtain ⟨q, h1, e⟩ := h
    cases e
    unfold Gen.selectAnchor at h1
    split at h1
    · cases h1
    · rename_i g1 hg1
      split at hg1
      · cases hg1
      · cases hg1
        split at h1
        · cases h1
        · split at h1
          · cases h1
          · cases h1
            exact ⟨Nat.le_refl _, crystal_next_when_finished_bug _ _ (Nat.le_refl _) hl⟩
  · intro r hr h
    simp only [cstep] at h
    cases h
    have hf : (p.setRmin r).g.finished ∧ (p.setRmin r).g.last = (p.setRmin r).g.buf.length := by
      simp only [CryGen.setRmin, Gen.setRmin]
      rw [if_pos hr]
      exact ⟨Nat.le_refl _, hl⟩
    exact ⟨hf.1, crystal_next_when_finished_bug _ _ hf.1 hf.2⟩
  · intro r hr h
    simp only [cstep] at h
    cases h
    have hf : (p.setRmax r).g.finished ∧ (p.setRmax r).g.last = (p.setRmax r).g.buf.length := by
      simp only [CryGen.setRmax, Gen.setRmax]
      rw [if_pos hr]
      exact ⟨Nat.le_refl _, hl⟩
    exact ⟨hf.1, crystal_next_when_finished_bug _ _ hf.1 hf.2⟩
  · intro s h
    simp only [cstep] at h
    cases h
    exact ⟨Nat.le_refl _, crystal_next_when_finished_bug _ _ (Nat.le_refl _) rfl⟩

/-- **C78**: a new generator of each kind is finished, so a loop that forgets `rewind()` visits nothing. -/
theorem new_generator_finished (n : Nat) (w : World G) (c : CWorld G) :
    (Gen.new n).finished ∧ (PerGen.new w).g.finished ∧ (CryGen.new c).g.finished :=
  ⟨Nat.le_refl _, Nat.le_refl _, Nat.le_refl _⟩

/-- A call within `N` sites, apart from `next()`; newly computed equivalent positions give every site at least one. -/
def COp.within (N : Nat) : COp G → Prop
  | .anchor a => a < N
  | .range f l => f ≤ N ∧ l ≤ N
  | .sites s => ∀ j ∈ s, j < N
  | .iters v f l => f ≤ v.length ∧ l ≤ v.length ∧ ∀ j ∈ v, j < N
  | .edit p => N ≤ p.length
  | .resym s => N ≤ s.length ∧ ∀ sa ∈ s, sa ≠ []
  | .next => False
  | _ => True

/-- **C78**, crystal: settings, whole loops and `rewind()` in any order, with sites that exist, never read outside an
array or through a null pointer, also after edits of the structure and after new symmetry positions. -/
theorem crystal_loops_never_fail (w0 : CWorld G) (ops : List (COp G)) (h0 : w0.pos.length ≤ w0.syms.length)
    (h1 : ∀ sa ∈ w0.syms, sa ≠ []) (h : ∀ o ∈ ops, o.within w0.pos.length) :
    ∃ s, crun (w0, CryGen.new w0) ops = some s := by
  let Ok : CWorld G × CryGen G → Prop := fun s => w0.pos.length ≤ s.1.pos.length ∧
    (w0.pos.length ≤ s.1.syms.length ∧ ∀ sa ∈ s.1.syms, sa ≠ []) ∧ s.2.g.all = List.range w0.pos.length ∧
    (∀ j ∈ s.2.g.buf, j < w0.pos.length) ∧ s.2.g.last ≤ s.2.g.buf.length
  have hsym : ∀ s : CWorld G × CryGen G, Ok s → ∀ j, j < w0.pos.length → HasSym s.1 j := by
    intro s hs j hj
    have hl : j < s.1.syms.length := by have := hs.2.1.1; omega
    have hne := hs.2.1.2 _ (List.getElem_mem hl)
    obtain ⟨q, qs, hq⟩ := List.exists_cons_of_ne_nil hne
    exact ⟨s.1.syms[j], q, List.getElem?_eq_getElem hl, by rw [hq]; rfl⟩
  have hloop : ∀ s : CWorld G × CryGen G, Ok s → ∃ r, s.2.loop s.1 = some r ∧ Ok (s.1, r.2) := by
    intro s hs
    obtain ⟨b, k, rest, rc, n, t, e, _⟩ := (cloop_exact s.1 s.2 hs.2.2.2.2).1 (by
      intro j hj
      exact hsym s hs j (hs.2.2.2.1 j (List.mem_of_mem_take (List.mem_of_mem_drop hj))))
    exact ⟨_, e, hs⟩
  have key : ∀ (ops : List (COp G)) (s : CWorld G × CryGen G), Ok s → (∀ o ∈ ops, o.within w0.pos.length) →
      ∃ s', crun s ops = some s' := by
    intro ops
    induction ops with
    | nil => intro s _ _; exact ⟨s, rfl⟩
    | cons o os ih =>
      intro s hs ho
      have hstep : ∃ s', cstep s o = some s' ∧ Ok s' := by
        obtain ⟨w, p⟩ := s
        have hs' := hs
        obtain ⟨o1, o2, o3, o4, o5⟩ := hs
        simp only at o1 o2 o3 o4 o5
        have hoo := ho o (by simp)
        cases o with
        | anchor a =>
          have ha : a < w0.pos.length := hoo
          have hl : a < w.pos.length := Nat.lt_of_lt_of_le ha o1
          obtain ⟨sa, q, hsa, hq⟩ := hsym _ hs' a ha
          refine ⟨(w, { p with g := { p.g with
              anchor := a
              cur := p.g.last
              c := ⟨q, p.g.c.rmin, p.g.c.rmax⟩ } }), ?_, ⟨o1, o2, o3, o4, o5⟩⟩
          simp only [cstep, CryGen.selectAnchor, Gen.selectAnchor]
          rw [List.getElem?_eq_getElem hl]
          simp only
          simp only at hsa
          rw [hsa]
          simp only
          rw [hq]
          rfl
        | range f l =>
          have hfl : f ≤ w0.pos.length ∧ l ≤ w0.pos.length := hoo
          refine ⟨(w, { p with g := ({ p.g with
              buf := p.g.all
              first := f
              last := l } : Gen).setFinished }), ?_, ⟨o1, o2, o3, ?_, ?_⟩⟩
          · simp only [cstep, Gen.selectRange]
            rw [if_pos (by rw [o3, List.length_range]; exact hfl)]; rfl
          · simp only [Gen.setFinished, o3, List.mem_range]; exact fun j hj => hj
          · simp only [Gen.setFinished, o3, List.length_range]; exact hfl.2
        | sites v => exact ⟨_, rfl, ⟨o1, o2, o3, hoo, Nat.le_refl _⟩⟩
        | iters v f l =>
          obtain ⟨h1, h2, h3⟩ : f ≤ v.length ∧ l ≤ v.length ∧ ∀ j ∈ v, j < w0.pos.length := hoo
          refine ⟨(w, { p with g := ({ p.g with
              buf := v
              first := f
              last := l } : Gen).setFinished }), ?_, ⟨o1, o2, o3, h3, h2⟩⟩
          simp only [cstep, Gen.selectIters]
          rw [if_pos ⟨h1, h2⟩]; rfl
        | rmin r =>
          refine ⟨_, rfl, ⟨o1, o2, ?_⟩⟩
          simp only [CryGen.setRmin, Gen.setRmin]
          split <;> exact ⟨o3, o4, o5⟩
        | rmax r =>
          refine ⟨_, rfl, ⟨o1, o2, ?_⟩⟩
          simp only [CryGen.setRmax, Gen.setRmax]
          split <;> exact ⟨o3, o4, o5⟩
        | rewind =>
          obtain ⟨r, hr, _⟩ := hloop _ hs'
          unfold CryGen.loop at hr
          simp only at hr
          cases hrw : p.rewind w with
          | none => rw [hrw] at hr; cases hr
          | some p' =>
            refine ⟨(w, p'), by simp only [cstep]; rw [hrw]; rfl, ?_⟩
            obtain ⟨b, k, rest, rc, n, t, rfl⟩ := crewind_moved hrw
            exact ⟨o1, o2, o3, o4, o5⟩
        | next => exact absurd hoo (by simp [COp.within])
        | loop =>
          obtain ⟨r, hr, hok⟩ := hloop _ hs'
          exact ⟨(w, r.2), by simp only [cstep]; rw [hr]; rfl, hok⟩
        | edit q => exact ⟨_, rfl, ⟨hoo, o2, o3, o4, o5⟩⟩
        | lattice L => exact ⟨_, rfl, ⟨o1, o2, o3, o4, o5⟩⟩
        | resym q => exact ⟨_, rfl, ⟨o1, hoo, o3, o4, o5⟩⟩
      obtain ⟨s1, h1, h2⟩ := hstep
      obtain ⟨s2, h3⟩ := ih s1 h2 (fun o' ho' => ho o' (List.mem_cons_of_mem _ ho'))
      exact ⟨s2, by simp only [crun]; rw [h1]; exact h3⟩
  refine key ops _ ⟨Nat.le_refl _, ⟨h0, h1⟩, rfl, ?_, by simp [CryGen.new, Gen.new]⟩ h
  simp only [CryGen.new, Gen.new, List.mem_range]
  exact fun j hj => hj

/-- The loop of a user that stops after at most `n` bonds. -/
noncomputable def stopAfter (w : CWorld G) : Nat → CryGen G → Option (CryGen G)
  | 0, p => some p
  | n + 1, p => if p.g.last ≤ p.g.cur then some p else (p.next w).bind (stopAfter w n)

/-- **C78**, crystal: when the whole loop is safe, stopping it after any number of bonds is safe too. -/
theorem crystal_stopped_loop_never_fails (w : CWorld G) (p : CryGen G) (h : (p.loop w).isSome) (n : Nat) :
    ((p.rewind w).bind (stopAfter w n)).isSome := by
  have key : ∀ n (p : CryGen G), (p.collect w).isSome → (stopAfter w n p).isSome := by
    intro n
    induction n with
    | zero => intro p _; rfl
    | succ n ih =>
      intro p hp
      unfold stopAfter
      by_cases hf : p.g.last ≤ p.g.cur
      · rw [if_pos hf]; rfl
      · rw [if_neg hf]
        rw [CryGen.collect.eq_1, dif_neg hf] at hp
        split at hp
        · cases hp
        · split at hp
          · cases hp
          · rename_i p1 hn
            rw [hn]
            simp only [Option.bind_some]
            apply ih
            split at hp
            · cases hp
            · rename_i l p' hc; rw [hc]; rfl
  unfold CryGen.loop at h
  split at h
  · cases h
  · rename_i p1 h1
    rw [h1]
    exact key n p1 h

/-- A history with edits, loops and new symmetry positions meets the hypotheses. -/
example (L L' : G.Lat) (P Q R S T : V3) :
    ∃ s, crun (⟨L, [P, Q], [[P, R], [Q]], 0⟩, CryGen.new ⟨L, [P, Q], [[P, R], [Q]], 0⟩)
      ([.anchor 0, .rmax 5, .rewind, .sites [1, 0], .loop, .lattice L', .resym [[P], [Q, S, T], [R]], .range 1 2,
        .loop, .edit [P, Q, R], .rewind] : List (COp G)) = some s := by
  apply crystal_loops_never_fail
  · simp
  · simp
  · intro o ho
    simp only [List.mem_cons, List.not_mem_nil, or_false] at ho
    rcases ho with rfl | rfl | rfl | rfl | rfl | rfl | rfl | rfl | rfl | rfl | rfl <;> simp [COp.within]

/-- The request after that history: the anchor stays where it was, the equivalent positions are the new ones. -/
example (L L' : G.Lat) (P Q R S T : V3) :
    let a := casked (⟨L, [P, Q], [[P, R], [Q]], 0⟩ : CWorld G)
      ([.anchor 0, .rmax 5, .rewind, .sites [1, 0], .loop, .lattice L', .resym [[P], [Q, S, T], [R]], .range 1 2,
        .loop, .edit [P, Q, R], .rewind] : List (COp G))
    a.r0 = P ∧ a.rmax = 5 ∧ a.sel = [1] ∧ a.world = ⟨L', [P, Q, R], [[P], [Q, S, T], [R]], 1⟩ := by
  refine ⟨rfl, rfl, rfl, rfl⟩

/-! ### The crystals of the library -/

/-- The structure as its generator sees it when it is created. -/
noncomputable def cworldOf (c : Verif.Crystal.Crys) : CWorld latGeo where
  lat := c.L
  pos := c.atoms.map Verif.Crystal.Site.xyz
  syms := c.updateSymmetryPositions.sym.map fun l => l.map Verif.Crystal.Site.xyz
  ver := 0

open Verif.Points Verif.Periodic Verif.Crystal in
/-- **C78**, crystal: for a generator of the library, used in any way while the structure is not changed and after an
anchor was selected, the bonds are those of C46. -/
theorem crystal_object_bonds (c : Crys) (ops : List (COp latGeo)) (hL : ∀ L, COp.lattice L ∉ ops)
    (hS : ∀ s, COp.resym s ∉ ops) (a : Nat)
    (ha : (casked (cworldOf c) ops).r0 = ((cworldOf c).syms.getD a []).getD 0 V3.zero)
    (hsel : ∀ j ∈ (casked (cworldOf c) ops).sel, (cworldOf c).syms.getD j [] ≠ []) (old : Cur) :
    CrystalBonds c (casked (cworldOf c) ops).rmin (casked (cworldOf c) ops).rmax a (casked (cworldOf c) ops).sel old
      ((casked (cworldOf c) ops).bonds.map CBond.bond) := by
  obtain ⟨h1, h2⟩ := crystal_points_current (cworldOf c) ops hL
  have hsy : (casked (cworldOf c) ops).world.syms = (cworldOf c).syms := by
    have key : ∀ (ops : List (COp latGeo)) (a : CAsked latGeo), (∀ s, COp.resym s ∉ ops) →
        (ops.foldl cask a).world.syms = a.world.syms := by
      intro ops
      induction ops with
      | nil => intro a _; rfl
      | cons o os ih =>
        intro a h
        rw [List.foldl_cons, ih _ fun s hs => h s (List.mem_cons_of_mem _ hs)]
        cases o with
        | resym s => exact absurd (by simp) (h s)
        | _ => rfl
    exact key ops _ hS
  have hget : ∀ j, (cworldOf c).syms.getD j [] = (c.updateSymmetryPositions.sym.getD j []).map Site.xyz := by
    intro j
    unfold cworldOf
    simp only [List.getD, List.getElem?_map]
    cases c.updateSymmetryPositions.sym[j]? <;> rfl
  refine ⟨_, (sphere_terminates ((casked (cworldOf c) ops).rmin - c.L.ucMaxDiagonalLength)
    ((casked (cworldOf c) ops).rmax + c.L.ucMaxDiagonalLength) (latPar c.L)).choose_spec.1, ?_⟩
  rw [cry_loop_exact _ _ _ _ (fun i hi => by rw [← hget]; exact hsel i hi)]
  have hpt : (casked (cworldOf c) ops).points = (sphere_terminates
    ((casked (cworldOf c) ops).rmin - c.L.ucMaxDiagonalLength)
    ((casked (cworldOf c) ops).rmax + c.L.ucMaxDiagonalLength) (latPar c.L)).choose := h2
  rw [← hpt]
  unfold CAsked.bonds
  rw [h1, ha, hsy]
  simp only [hget]
  rw [List.map_flatMap]
  apply List.flatMap_congr
  intro j hj
  rw [List.map_flatMap]
  have hd : ∀ l : List V3, l.getD 0 V3.zero = l.headD V3.zero := by intro l; cases l <;> rfl
  have hz : ∀ (l : List V3) (f : V3 → List Bond), l.zipIdx.flatMap (fun e => f e.1) = l.flatMap f := by
    intro l f
    rw [← List.flatMap_map (f := Prod.fst) (g := f)]
    simp
  rw [← hz]
  apply List.flatMap_congr
  intro e _
  rw [List.map_flatMap, hd]
  have := head_form (latGeo.cart c.L) (casked (cworldOf c) ops).points
  have h3 : (cworldOf c).lat = c.L := rfl
  rw [h3, this]
  apply List.flatMap_congr
  intro t _
  rw [List.map_map]
  exact List.map_id'' (fun _ => rfl) _

end Verif.GenObj
