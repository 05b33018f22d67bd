import Verif.Lemmas.GenObject
import Verif.Props.Periodic
import Mathlib.Tactic.ByContra
/-! C78: a bond generator that the user keeps and drives by any sequence of calls. -/
namespace Verif.GenObj
open Verif.R3 Verif.BondGen Classical

/-! ### Specification: what the user has asked for -/

/-- The positions of the structure now, the anchor site and the position that it had when it was selected, the
limits and the selected sites. -/
structure Asked where
  pos : List V3
  site0 : Nat
  r0 : V3
  rmin : ℝ
  rmax : ℝ
  sel : List Nat

/-- Before any call. -/
noncomputable def asked0 (pos : List V3) : Asked := ⟨pos, 0, V3.zero, 0, 0, List.range pos.length⟩

/-- The effect of one call on the request; `rewind`, `next` and whole loops have none. -/
noncomputable def ask (a : Asked) : Op → Asked
  | .anchor k => { a with
                   site0 := k
                   r0 := a.pos.getD k V3.zero }
  | .range f l => { a with sel := (List.range l).drop f }
  | .sites s => { a with sel := s }
  | .iters v f l => { a with sel := (v.take l).drop f }
  | .rmin r => { a with rmin := r }
  | .rmax r => { a with rmax := r }
  | .edit p => { a with pos := p }
  | .rewind => a
  | .next => a
  | .loop => a

/-- The request after a history. -/
noncomputable def asked (pos : List V3) (ops : List Op) : Asked := ops.foldl ask (asked0 pos)

/-- The bonds that the request describes: for each selected site in order the bond to it, if it is in range. -/
noncomputable def Asked.bonds (a : Asked) : List Bond :=
  a.sel.flatMap fun j => specBond ⟨a.r0, a.rmin, a.rmax⟩ j (a.pos.getD j V3.zero)

/-! ### Theorems -/

/-- The generator holds the request `a`. -/
structure Holds (n : Nat) (a : Asked) (w : List V3 × Gen) : Prop where
  hpos : w.1 = a.pos
  hsite : w.2.anchor = a.site0
  hc : w.2.c = ⟨a.r0, a.rmin, a.rmax⟩
  hsel : w.2.sel = a.sel
  hall : w.2.all = List.range n
  hlast : w.2.last ≤ w.2.buf.length

theorem holds_new (pos : List V3) : Holds pos.length (asked0 pos) (pos, Gen.new pos.length) where
  hpos := rfl
  hsite := rfl
  hc := rfl
  hsel := by
    show ((List.range pos.length).take pos.length).drop 0 = List.range pos.length
    rw [List.drop_zero, List.take_of_length_le (by simp)]
  hall := rfl
  hlast := by simp [Gen.new]

theorem Holds.of_cur {n : Nat} {a : Asked} {pos : List V3} {g : Gen} (h : Holds n a (pos, g)) (k : Nat)
    (b : Cur) : Holds n a (pos, { g with
                                  cur := k
                                  bd := b }) :=
  ⟨h.hpos, h.hsite, h.hc, h.hsel, h.hall, h.hlast⟩

theorem rewind_shape {pos : List V3} {g g' : Gen} (h : rewind pos g = some g') :
    ∃ b k, g' = { g with
                  cur := k
                  bd := b } := by
  unfold rewind at h
  dsimp only at h
  split at h
  · cases h; exact ⟨g.bd, _, rfl⟩
  · split at h
    · cases h
    · rename_i g2 h2
      obtain ⟨b, rfl⟩ := rewindSym_shape h2
      obtain ⟨b', k, rfl⟩ := advance_shape _ _ _ h
      exact ⟨b', _, rfl⟩

theorem holds_step {n : Nat} {a : Asked} {w w' : List V3 × Gen} (h : Holds n a w) (o : Op)
    (hs : step w o = some w') : Holds n (ask a o) w' := by
  obtain ⟨pos, g⟩ := w
  have hlr : ∀ (l : Nat), l ≤ n → (List.range n).take l = List.range l := by
    intro l hl
    rw [List.take_range, Nat.min_eq_left hl]
  cases o with
  | anchor k =>
    simp only [step, Gen.selectAnchor] at hs
    split at hs
    · cases hs
    · rename_i r hr
      cases hs
      refine ⟨h.hpos, rfl, ?_, h.hsel, h.hall, h.hlast⟩
      have hcc := h.hc
      have hp := h.hpos
      simp only at hcc hp
      simp only [ask, Gen.setFinished, hcc]
      rw [← hp, List.getD, hr]; rfl
  | range f l =>
    simp only [step, Gen.selectRange] at hs
    split at hs
    · rename_i hfl
      cases hs
      have ha := h.hall
      simp only at ha
      rw [ha, List.length_range] at hfl
      refine ⟨h.hpos, h.hsite, h.hc, ?_, h.hall, ?_⟩
      · simp only [Gen.sel, Gen.setFinished, ask, ha, hlr l hfl.2]
      · simp only [Gen.setFinished, ha, List.length_range]; exact hfl.2
    · cases hs
  | sites s =>
    simp only [step, Gen.selectSites] at hs
    cases hs
    exact ⟨h.hpos, h.hsite, h.hc, by simp [Gen.sel, Gen.setFinished, ask], h.hall, Nat.le_refl _⟩
  | iters v f l =>
    simp only [step, Gen.selectIters] at hs
    split at hs
    · rename_i hfl
      cases hs
      exact ⟨h.hpos, h.hsite, h.hc, rfl, h.hall, hfl.2⟩
    · cases hs
  | rmin r =>
    simp only [step, Gen.setRmin] at hs
    cases hs
    have hcc := h.hc
    simp only at hcc
    split
    · exact ⟨h.hpos, h.hsite, by simp [ask, Gen.setFinished, hcc], h.hsel, h.hall, h.hlast⟩
    · exact ⟨h.hpos, h.hsite, by simp [ask, hcc], h.hsel, h.hall, h.hlast⟩
  | rmax r =>
    simp only [step, Gen.setRmax] at hs
    cases hs
    have hcc := h.hc
    simp only at hcc
    split
    · exact ⟨h.hpos, h.hsite, by simp [ask, Gen.setFinished, hcc], h.hsel, h.hall, h.hlast⟩
    · exact ⟨h.hpos, h.hsite, by simp [ask, hcc], h.hsel, h.hall, h.hlast⟩
  | rewind =>
    simp only [step, Option.map_eq_some_iff] at hs
    obtain ⟨g', h1, rfl⟩ := hs
    obtain ⟨b, k, rfl⟩ := rewind_shape h1
    exact h.of_cur k b
  | next =>
    simp only [step, Option.map_eq_some_iff] at hs
    obtain ⟨g', h1, rfl⟩ := hs
    obtain ⟨b, k, rfl⟩ := next_shape h1
    exact h.of_cur _ b
  | loop =>
    simp only [step, Option.map_eq_some_iff] at hs
    obtain ⟨r, h1, rfl⟩ := hs
    by_cases hin : ∀ j ∈ g.sel, j < pos.length
    · obtain ⟨b, k, e, _⟩ := (loop_exact pos g h.hlast).1 hin
      rw [e] at h1
      cases h1
      exact h.of_cur _ b
    · push Not at hin
      rw [(loop_exact pos g h.hlast).2 hin] at h1
      cases h1
  | edit p =>
    simp only [step] at hs
    cases hs
    exact ⟨rfl, h.hsite, h.hc, h.hsel, h.hall, h.hlast⟩

theorem holds_run {n : Nat} (ops : List Op) : ∀ {a : Asked} {w w' : List V3 × Gen}, Holds n a w →
    run w ops = some w' → Holds n (ops.foldl ask a) w' := by
  induction ops with
  | nil => intro a w w' h hr; cases hr; exact h
  | cons o os ih =>
    intro a w w' h hr
    simp only [run] at hr
    split at hr
    · cases hr
    · rename_i w1 h1
      exact ih (holds_step h o h1) hr

/-- **C78**: after any history of calls the getters report the last settings. -/
theorem settings_after_any_history (pos0 : List V3) (ops : List Op) (pos : List V3) (g : Gen)
    (h : run (pos0, Gen.new pos0.length) ops = some (pos, g)) :
    pos = (asked pos0 ops).pos ∧ g.anchor = (asked pos0 ops).site0 ∧ g.c.r0 = (asked pos0 ops).r0 ∧
    g.c.rmin = (asked pos0 ops).rmin ∧ g.c.rmax = (asked pos0 ops).rmax := by
  have hh := holds_run ops (holds_new pos0) h
  have hc := hh.hc
  simp only at hc
  refine ⟨hh.hpos, hh.hsite, ?_, ?_, ?_⟩ <;> rw [hc] <;> rfl

/-- **C78**: after any history, with loops begun, abandoned or finished, a new loop visits exactly the bonds that
the last settings describe and ends finished; it reads outside an array exactly when a selected site does not
exist now. -/
theorem loop_after_any_history (pos0 : List V3) (ops : List Op) (pos : List V3) (g : Gen)
    (h : run (pos0, Gen.new pos0.length) ops = some (pos, g)) :
    ((∀ j ∈ (asked pos0 ops).sel, j < pos.length) →
      ∃ g', loop pos g = some ((asked pos0 ops).bonds, g') ∧ g'.finished) ∧
    ((∃ j ∈ (asked pos0 ops).sel, pos.length ≤ j) → loop pos g = none) := by
  have hh := holds_run ops (holds_new pos0) h
  obtain ⟨h1, h2⟩ := loop_exact pos g hh.hlast
  have hsel : g.sel = (asked pos0 ops).sel := hh.hsel
  have hp : pos = (asked pos0 ops).pos := hh.hpos
  have hc : g.c = _ := hh.hc
  rw [hsel] at h1 h2
  refine ⟨fun hin => ?_, h2⟩
  obtain ⟨b, k, e, hk⟩ := h1 hin
  refine ⟨{ g with
            cur := k
            bd := b }, ?_, ?_⟩
  · rw [e]
    have : (asked pos0 ops).sel.flatMap (fun j => specBond g.c j (pos.getD j V3.zero))
        = (asked pos0 ops).bonds := by
      unfold Asked.bonds
      rw [hc]
      conv_lhs => rw [hp]
      rfl
    rw [this]
  · exact hk

/-- Loop control calls. -/
def Op.isControl : Op → Prop
  | .rewind => True
  | .next => True
  | .loop => True
  | _ => False

theorem asked_control (ops : List Op) : ∀ a : Asked,
    (ops.filter fun o => decide (¬ o.isControl)).foldl ask a = ops.foldl ask a := by
  induction ops with
  | nil => intro a; rfl
  | cons o os ih =>
    intro a
    by_cases hc : o.isControl
    · rw [List.filter_cons_of_neg (by simpa using hc), List.foldl_cons, ih]
      cases o <;> first | rfl | exact absurd hc (by simp [Op.isControl])
    · rw [List.filter_cons_of_pos (by simpa using hc), List.foldl_cons, List.foldl_cons, ih]

/-- **C78**: where earlier loops were stopped does not matter: leaving them out gives the same bonds. -/
theorem abandoned_loops_do_not_matter (pos0 : List V3) (ops : List Op) (w w' : List V3 × Gen)
    (h : run (pos0, Gen.new pos0.length) ops = some w)
    (h' : run (pos0, Gen.new pos0.length) (ops.filter fun o => decide (¬ o.isControl)) = some w') :
    (loop w.1 w.2).map Prod.fst = (loop w'.1 w'.2).map Prod.fst := by
  have e : asked pos0 (ops.filter fun o => decide (¬ o.isControl)) = asked pos0 ops := asked_control ops _
  obtain ⟨pos, g⟩ := w
  obtain ⟨pos', g'⟩ := w'
  obtain ⟨a1, a2⟩ := loop_after_any_history pos0 ops pos g h
  obtain ⟨b1, b2⟩ := loop_after_any_history pos0 _ pos' g' h'
  have hp := (settings_after_any_history pos0 ops pos g h).1
  have hp' := (settings_after_any_history pos0 _ pos' g' h').1
  rw [e] at b1 b2 hp'
  have hpp : pos' = pos := by rw [hp, hp']
  rw [hpp] at b1 b2 ⊢
  by_cases hin : ∀ j ∈ (asked pos0 ops).sel, j < pos.length
  · obtain ⟨x, hx, _⟩ := a1 hin
    obtain ⟨y, hy, _⟩ := b1 hin
    simp only
    rw [hx, hy]; rfl
  · push Not at hin
    simp only
    rw [a2 hin, b2 hin]

/-- **C78**: every selection, and a limit that differs from the present one, ends the loop in progress: `finished()`
is true; the same limit again leaves everything as it is. -/
theorem configuration_ends_loop (pos : List V3) (g : Gen) (pos' : List V3) (g' : Gen) :
    (∀ k, step (pos, g) (.anchor k) = some (pos', g') → g'.finished) ∧
    (∀ f l, step (pos, g) (.range f l) = some (pos', g') → g'.finished) ∧
    (∀ s, step (pos, g) (.sites s) = some (pos', g') → g'.finished) ∧
    (∀ v f l, step (pos, g) (.iters v f l) = some (pos', g') → g'.finished) ∧
    (∀ r, step (pos, g) (.rmin r) = some (pos', g') → if r = g.c.rmin then g' = g else g'.finished) ∧
    (∀ r, step (pos, g) (.rmax r) = some (pos', g') → if r = g.c.rmax then g' = g else g'.finished) := by
  refine ⟨?_, ?_, ?_, ?_, ?_, ?_⟩
  · intro k h
    simp only [step, Gen.selectAnchor] at h
    split at h
    · cases h
    · cases h; exact Nat.le_refl _
  · intro f l h
    simp only [step, Gen.selectRange] at h
    split at h
    · cases h; exact Nat.le_refl _
    · cases h
  · intro s h
    simp only [step, Gen.selectSites] at h
    cases h; exact Nat.le_refl _
  · intro v f l h
    simp only [step, Gen.selectIters] at h
    split at h
    · cases h; exact Nat.le_refl _
    · cases h
  · intro r h
    simp only [step, Gen.setRmin] at h
    cases h
    by_cases e : r = g.c.rmin
    · rw [if_pos e, if_neg (not_not.2 e), e]
    · rw [if_neg e, if_pos e]; exact Nat.le_refl _
  · intro r h
    simp only [step, Gen.setRmax] at h
    cases h
    by_cases e : r = g.c.rmax
    · rw [if_pos e, if_neg (not_not.2 e), e]
    · rw [if_neg e, if_pos e]; exact Nat.le_refl _

/-- **C78**: for the plain generator a finished loop stays finished: `next()` on it reads nothing and cannot revive
it, so changing the settings inside a `for` loop ends the loop. -/
theorem finished_stays (pos : List V3) (g : Gen) (h : g.finished) :
    ∃ g', next pos g = some g' ∧ g'.finished ∧ g'.bd = g.bd := by
  have hf : g.last ≤ g.cur + 1 := Nat.le_succ_of_le h
  refine ⟨{ g with cur := g.cur + 1 }, ?_, hf, rfl⟩
  unfold next getNext
  dsimp only
  rw [if_pos hf]
  dsimp only
  rw [advance_fin hf]

/-- **C78**: a generator without `setRmax` gives no bonds, however it is used otherwise. -/
theorem no_bonds_without_rmax (pos0 : List V3) (ops : List Op) (h : ∀ r, Op.rmax r ∉ ops) :
    (asked pos0 ops).bonds = [] := by
  have key : ∀ (ops : List Op) (a : Asked), (∀ r, Op.rmax r ∉ ops) → (ops.foldl ask a).rmax = a.rmax := by
    intro ops
    induction ops with
    | nil => intro a _; rfl
    | cons o os ih =>
      intro a h
      rw [List.foldl_cons, ih _ fun r hr => h r (List.mem_cons_of_mem _ hr)]
      cases o with
      | rmax r => exact absurd (by simp) (h r)
      | _ => rfl
  have h0 : (asked pos0 ops).rmax = 0 := key ops _ h
  unfold Asked.bonds
  rw [List.flatMap_eq_nil_iff]
  intro j _
  unfold specBond
  rw [if_neg]
  intro hg
  unfold GoodDist at hg
  simp only [h0] at hg
  have : (0 : ℝ) < sqrtEps := by unfold sqrtEps; positivity
  linarith [hg.2.1, hg.2.2]

/-- **C78** (defect): a generator on which no anchor was selected says that its anchor is site 0, but its bonds start
from the origin. -/
theorem unselected_anchor_bug (pos0 : List V3) (ops : List Op) (h : ∀ k, Op.anchor k ∉ ops) :
    (asked pos0 ops).site0 = 0 ∧ (asked pos0 ops).r0 = V3.zero := by
  have key : ∀ (ops : List Op) (a : Asked), (∀ k, Op.anchor k ∉ ops) →
      (ops.foldl ask a).site0 = a.site0 ∧ (ops.foldl ask a).r0 = a.r0 := by
    intro ops
    induction ops with
    | nil => intro a _; exact ⟨rfl, rfl⟩
    | cons o os ih =>
      intro a h
      rw [List.foldl_cons]
      obtain ⟨h1, h2⟩ := ih (ask a o) fun r hr => h r (List.mem_cons_of_mem _ hr)
      rw [h1, h2]
      cases o with
      | anchor k => exact absurd (by simp) (h k)
      | _ => exact ⟨rfl, rfl⟩
  exact key ops _ h

/-- Two atoms on a line: the bond of the anchor "site 0" to itself is reported, with the distance to the origin. -/
theorem unselected_anchor_witness :
    (asked [⟨1, 0, 0⟩, ⟨3, 0, 0⟩] [.rmax 2]).bonds
      = [⟨0, ⟨1, 0, 0⟩, ⟨1, 0, 0⟩, 1⟩] := by
  have hd : ∀ x : ℝ, 0 ≤ x → V3.distance ⟨x, 0, 0⟩ V3.zero = x := by
    intro x hx
    unfold V3.distance V3.norm V3.sub V3.zero V3.dot
    simp only [sub_zero]
    rw [show x * x + 0 * 0 + 0 * 0 = x * x by ring]
    exact Real.sqrt_mul_self hx
  have e : sqrtEps < 1 := by unfold sqrtEps; norm_num
  unfold Asked.bonds asked
  simp only [List.foldl, ask, asked0]
  have : List.range ([⟨1, 0, 0⟩, ⟨3, 0, 0⟩] : List V3).length = [0, 1] := rfl
  rw [this]
  simp only [List.flatMap_cons, List.flatMap_nil, List.getD_cons_zero, List.getD_cons_succ, specBond, GoodDist]
  rw [hd 1 (by norm_num), hd 3 (by norm_num)]
  rw [if_pos ⟨by norm_num, by norm_num, e⟩, if_neg (by norm_num)]
  simp [V3.sub, V3.zero]

/-- **C78**: the range that can be selected is fixed when the generator is created: after atoms are added to the
structure, `selectSiteRange` cannot reach them (the iterators would be outside `msite_all`); `selectSites` can. -/
theorem range_fixed_at_creation (pos0 : List V3) (ops : List Op) (pos : List V3) (g : Gen)
    (h : run (pos0, Gen.new pos0.length) ops = some (pos, g)) (f l : Nat) :
    (step (pos, g) (.range f l)).isSome ↔ f ≤ pos0.length ∧ l ≤ pos0.length := by
  have ha : g.all = List.range pos0.length := (holds_run ops (holds_new pos0) h).hall
  simp only [step, Gen.selectRange, ha, List.length_range]
  split <;> simp_all

/-- **C78** (defect): moving the anchor atom in place does not move the anchor of the generator: the loop uses the new
positions of the neighbours with the old position of the anchor, until the anchor is selected again. -/
theorem stale_anchor_bug (pos0 : List V3) (ops : List Op) (p : List V3) :
    (asked pos0 (ops ++ [.edit p])).r0 = (asked pos0 ops).r0 ∧
    (asked pos0 (ops ++ [.edit p])).bonds = (asked pos0 ops).sel.flatMap (fun j =>
      specBond ⟨(asked pos0 ops).r0, (asked pos0 ops).rmin, (asked pos0 ops).rmax⟩ j (p.getD j V3.zero)) ∧
    (asked pos0 (ops ++ [.edit p, .anchor (asked pos0 ops).site0])).r0
      = p.getD (asked pos0 ops).site0 V3.zero := by
  refine ⟨?_, ?_, ?_⟩ <;> simp [asked, ask, Asked.bonds]

/-- A call that stays within `N` sites: anchors, ranges and selections refer to sites below `N`, and edits of the
structure keep at least `N` sites. -/
def Op.within (N : Nat) : Op → Prop
  | .anchor a => a < N
  | .range f l => f ≤ N ∧ l ≤ N
  | .sites s => ∀ j ∈ s, j < N
  | .iters v f l => f ≤ v.length ∧ l ≤ v.length ∧ ∀ j ∈ v, j < N
  | .edit p => N ≤ p.length
  | _ => True

/-- The invariant: everything that the iterators can reach is a site below `N`. -/
structure Safe (N : Nat) (w : List V3 × Gen) : Prop where
  hpos : N ≤ w.1.length
  hall : w.2.all = List.range N
  hbuf : ∀ j ∈ w.2.buf, j < N
  hlast : w.2.last ≤ w.2.buf.length

theorem rewindSym_safe {N : Nat} {pos : List V3} {g : Gen} (h : Safe N (pos, g)) (hf : ¬ g.last ≤ g.cur) :
    (rewindSym pos g).isSome := by
  obtain ⟨i, hi, _⟩ := rest_cons h.hlast hf
  have hb : i < N := h.hbuf i (by unfold Gen.site1 at hi; exact List.mem_of_getElem? hi)
  have hl : i < pos.length := Nat.lt_of_lt_of_le hb h.hpos
  unfold rewindSym
  rw [hi]
  simp only
  rw [List.getElem?_eq_getElem hl]
  rfl

theorem Safe.of_cur {N : Nat} {pos : List V3} {g : Gen} (h : Safe N (pos, g)) (k : Nat) (b : Cur) :
    Safe N (pos, { g with
                   cur := k
                   bd := b }) := ⟨h.hpos, h.hall, h.hbuf, h.hlast⟩

theorem getNext_safe {N : Nat} {pos : List V3} {g : Gen} (h : Safe N (pos, g)) : (getNext pos g).isSome := by
  unfold getNext
  dsimp only
  split
  · rfl
  · rename_i hf
    exact rewindSym_safe (h.of_cur (g.cur + 1) g.bd) hf

theorem advance_safe {N : Nat} {pos : List V3} (g : Gen) (h : Safe N (pos, g)) : (advance pos g).isSome := by
  fun_induction advance pos g with
  | case1 g hf => rfl
  | case2 g hf hb hn => have := getNext_safe h; rw [hn] at this; cases this
  | case3 g hf hb g1 hn ih =>
    obtain ⟨b, rfl⟩ := getNext_shape hn
    exact ih (h.of_cur _ b)
  | case4 g hf hb => rfl

theorem safe_step {N : Nat} {w : List V3 × Gen} (h : Safe N w) (o : Op) (ho : o.within N) :
    ∃ w', step w o = some w' ∧ Safe N w' := by
  obtain ⟨pos, g⟩ := w
  cases o with
  | anchor a =>
    have hl : a < pos.length := Nat.lt_of_lt_of_le ho h.hpos
    refine ⟨(pos, ({ g with
                      anchor := a
                      c := ⟨pos[a], g.c.rmin, g.c.rmax⟩ } : Gen).setFinished), ?_, ?_⟩
    · simp only [step, Gen.selectAnchor]
      rw [List.getElem?_eq_getElem hl]; rfl
    · exact ⟨h.hpos, h.hall, h.hbuf, h.hlast⟩
  | range f l =>
    have ha : g.all = List.range N := h.hall
    have hfl : f ≤ N ∧ l ≤ N := ho
    refine ⟨(pos, ({ g with
            buf := g.all
            first := f
            last := l } : Gen).setFinished), ?_, ?_⟩
    · simp only [step, Gen.selectRange]
      rw [if_pos (by rw [ha, List.length_range]; exact hfl)]; rfl
    · refine ⟨h.hpos, h.hall, ?_, ?_⟩
      · simp only [Gen.setFinished, ha, List.mem_range]; exact fun j hj => hj
      · simp only [Gen.setFinished, ha, List.length_range]; exact hfl.2
  | sites s => exact ⟨_, rfl, ⟨h.hpos, h.hall, ho, Nat.le_refl _⟩⟩
  | iters v f l =>
    obtain ⟨h1, h2, h3⟩ : f ≤ v.length ∧ l ≤ v.length ∧ ∀ j ∈ v, j < N := ho
    refine ⟨(pos, ({ g with
            buf := v
            first := f
            last := l } : Gen).setFinished), ?_, ⟨h.hpos, h.hall, h3, h2⟩⟩
    simp only [step, Gen.selectIters]
    rw [if_pos ⟨h1, h2⟩]; rfl
  | rmin r =>
    refine ⟨_, rfl, ?_⟩
    simp only [Gen.setRmin]
    split <;> exact ⟨h.hpos, h.hall, h.hbuf, h.hlast⟩
  | rmax r =>
    refine ⟨_, rfl, ?_⟩
    simp only [Gen.setRmax]
    split <;> exact ⟨h.hpos, h.hall, h.hbuf, h.hlast⟩
  | rewind =>
    have : (rewind pos g).isSome := by
      unfold rewind
      dsimp only
      split
      · rfl
      · rename_i hf
        have h1 : (rewindSym pos { g with cur := g.first }).isSome :=
          rewindSym_safe (h.of_cur g.first g.bd) hf
        obtain ⟨g2, h2⟩ := Option.isSome_iff_exists.1 h1
        rw [h2]
        dsimp only
        obtain ⟨b, rfl⟩ := rewindSym_shape h2
        exact advance_safe _ (h.of_cur g.first b)
    obtain ⟨g', hg⟩ := Option.isSome_iff_exists.1 this
    obtain ⟨b, k, rfl⟩ := rewind_shape hg
    exact ⟨_, by simp only [step]; rw [hg]; rfl, h.of_cur k b⟩
  | next =>
    have : (next pos g).isSome := by
      unfold next
      obtain ⟨g2, h2⟩ := Option.isSome_iff_exists.1 (getNext_safe h)
      rw [h2]
      dsimp only
      obtain ⟨b, rfl⟩ := getNext_shape h2
      exact advance_safe _ (h.of_cur _ b)
    obtain ⟨g', hg⟩ := Option.isSome_iff_exists.1 this
    obtain ⟨b, k, rfl⟩ := next_shape hg
    exact ⟨_, by simp only [step]; rw [hg]; rfl, h.of_cur _ b⟩
  | loop =>
    obtain ⟨b, k, e, _⟩ := (loop_exact pos g h.hlast).1 (by
      intro j hj
      exact Nat.lt_of_lt_of_le (h.hbuf j (List.mem_of_mem_take (List.mem_of_mem_drop hj))) h.hpos)
    exact ⟨_, by simp only [step]; rw [e]; rfl, h.of_cur k b⟩
  | edit p => exact ⟨_, rfl, ⟨ho, h.hall, h.hbuf, h.hlast⟩⟩

/-- **C78**: a generator used only with sites that exist never reads outside an array, whatever the order of calls,
and also when `next()` is called on a finished generator or before any `rewind()`. -/
theorem valid_sites_never_fail (pos0 : List V3) (ops : List Op) (h : ∀ o ∈ ops, o.within pos0.length) :
    ∃ w, run (pos0, Gen.new pos0.length) ops = some w := by
  have key : ∀ (N : Nat) (ops : List Op) (w : List V3 × Gen), Safe N w → (∀ o ∈ ops, o.within N) →
      ∃ w', run w ops = some w' := by
    intro N ops
    induction ops with
    | nil => intro w _ _; exact ⟨w, rfl⟩
    | cons o os ih =>
      intro w hw ho
      obtain ⟨w1, h1, h2⟩ := safe_step hw o (ho o (by simp))
      obtain ⟨w2, h3⟩ := ih w1 h2 fun o' ho' => ho o' (List.mem_cons_of_mem _ ho')
      exact ⟨w2, by simp only [run]; rw [h1]; exact h3⟩
  refine key pos0.length ops _ ⟨Nat.le_refl _, rfl, ?_, by simp [Gen.new]⟩ h
  simp only [Gen.new, List.mem_range]
  exact fun j hj => hj

/-- A history with an abandoned loop, a reselection and an edit: the theorems apply. -/
example : ∃ w, run ([⟨1, 0, 0⟩, ⟨3, 0, 0⟩], Gen.new 2)
    [.next, .anchor 1, .rmax 5, .rewind, .next, .sites [0, 1, 0], .loop, .edit [⟨0, 0, 0⟩, ⟨3, 0, 0⟩, ⟨4, 0, 0⟩],
      .rewind, .range 1 2, .iters [1, 0, 1] 1 3, .rmin 1, .next] = some w := by
  apply valid_sites_never_fail
  intro o ho
  simp only [List.mem_cons, List.not_mem_nil, or_false] at ho
  rcases ho with rfl | rfl | rfl | rfl | rfl | rfl | rfl | rfl | rfl | rfl | rfl | rfl | rfl <;>
    simp [Op.within]

/-- In that history the last request is: from the position of atom 1 at the time of its selection, between 1 and 5,
to the sites 0 and 1 in this order. -/
example : (asked [⟨1, 0, 0⟩, ⟨3, 0, 0⟩]
    [.next, .anchor 1, .rmax 5, .rewind, .next, .sites [0, 1, 0], .loop, .edit [⟨0, 0, 0⟩, ⟨3, 0, 0⟩, ⟨4, 0, 0⟩],
      .rewind, .range 1 2, .iters [1, 0, 1] 1 3, .rmin 1, .next])
    = ⟨[⟨0, 0, 0⟩, ⟨3, 0, 0⟩, ⟨4, 0, 0⟩], 1, ⟨3, 0, 0⟩, 1, 5, [0, 1]⟩ := by
  simp [asked, ask, asked0]

/-! ### Periodic generator -/

variable {G : Geo}

/-- The request made to a periodic generator: the positions in the unit cell at its creation, the number of sites
and the lattice now, the anchor, the limits, the selected sites and the lattice points in use. -/
structure PAsked (G : Geo) where
  snap : List V3
  world : World G
  site0 : Nat
  r0 : V3
  rmin : ℝ
  rmax : ℝ
  sel : List Nat
  pts : Option (List G.Pt)

/-- Before any call. -/
noncomputable def pasked0 (w : World G) : PAsked G where
  snap := w.pos.map (G.ucv w.lat)
  world := w
  site0 := 0
  r0 := V3.zero
  rmin := 0
  rmax := 0
  sel := List.range w.pos.length
  pts := none

/-- The lattice points of the next loop: those in use, or else those for the limits and the lattice now. -/
noncomputable def PAsked.points (a : PAsked G) : List G.Pt :=
  a.pts.getD (G.visits a.world.lat (a.rmin - G.diag a.world.lat) (a.rmax + G.diag a.world.lat))

/-- The effect of one call on the request. -/
noncomputable def pask (a : PAsked G) : POp G → PAsked G
  | .anchor k => { a with
                   site0 := k
                   r0 := a.snap.getD k V3.zero }
  | .range f l => { a with sel := (List.range l).drop f }
  | .sites s => { a with sel := s }
  | .iters v f l => { a with sel := (v.take l).drop f }
  | .rmin r => { a with
                 rmin := r
                 pts := if r = a.rmin then a.pts else none }
  | .rmax r => { a with
                 rmax := r
                 pts := if r = a.rmax then a.pts else none }
  | .rewind => { a with pts := some a.points }
  | .loop => { a with pts := some a.points }
  | .next => a
  | .edit p => { a with world := ⟨a.world.lat, p⟩ }
  | .lattice L => { a with world := ⟨L, a.world.pos⟩ }

/-- The request after a history. -/
noncomputable def pasked (w : World G) (ops : List (POp G)) : PAsked G := ops.foldl pask (pasked0 w)

/-- The bonds that the request describes: for each lattice point, placed with the lattice of now, and each selected
site the bond to its image, if it is in range. -/
noncomputable def PAsked.bonds (a : PAsked G) : List Bond :=
  (if a.points = [] then [V3.zero] else a.points.map (G.cart a.world.lat)).flatMap fun t =>
    a.sel.flatMap fun j => specBond ⟨a.r0, a.rmin, a.rmax⟩ j (V3.add t (a.snap.getD j V3.zero))

/-- The periodic generator holds the request `a`. -/
structure PHolds (n : Nat) (a : PAsked G) (s : World G × PerGen G) : Prop where
  hworld : s.1 = a.world
  hsnap : s.2.snap = a.snap
  hsite : s.2.g.anchor = a.site0
  hc : s.2.g.c = ⟨a.r0, a.rmin, a.rmax⟩
  hsel : s.2.g.sel = a.sel
  hall : s.2.g.all = List.range n
  hlast : s.2.g.last ≤ s.2.g.buf.length
  hpts : s.2.sphere.map Prod.fst = a.pts

theorem PHolds.points {n : Nat} {a : PAsked G} {s : World G × PerGen G} (h : PHolds n a s) :
    s.2.points s.1 = a.points := by
  unfold PerGen.points PAsked.points
  rw [← h.hpts, h.hworld, h.hc]
  cases s.2.sphere with
  | none => rfl
  | some x => rfl

theorem pholds_new (w : World G) : PHolds w.pos.length (pasked0 w) (w, PerGen.new w) where
  hworld := rfl
  hsnap := rfl
  hsite := rfl
  hc := rfl
  hsel := by
    show ((List.range w.pos.length).take w.pos.length).drop 0 = List.range w.pos.length
    rw [List.drop_zero, List.take_of_length_le (by simp)]
  hall := rfl
  hlast := by simp [PerGen.new, Gen.new]
  hpts := rfl

/-- `getNextBond` and `advanceWhileInvalid` change only the position in the loop. -/
def Moved (p p' : PerGen G) : Prop :=
  ∃ b k rest rc, p' = { p with
    sphere := p.sphere.map fun x => (x.1, rest)
    rc := rc
    g := { p.g with
           cur := k
           bd := b } }

theorem Moved.trans {p q r : PerGen G} (h1 : Moved p q) (h2 : Moved q r) : Moved p r := by
  obtain ⟨b, k, rest, rc, rfl⟩ := h1
  obtain ⟨b', k', rest', rc', rfl⟩ := h2
  refine ⟨b', k', rest', rc', ?_⟩
  cases p with
  | mk g snap sphere rc0 => cases sphere <;> rfl

theorem updater1_moved {p p' : PerGen G} (h : p.updater1 = some p') : Moved p p' := by
  obtain ⟨b, rfl⟩ := PerGen.updater1_shape h
  cases hs : p.sphere with
  | none => exact ⟨b, p.g.cur, [], p.rc, by cases p; simp_all⟩
  | some x => exact ⟨b, p.g.cur, x.2, p.rc, by cases p; simp_all⟩

theorem getNext_moved {w : World G} {p p' : PerGen G} (h : p.getNext w = some p') : Moved p p' := by
  unfold PerGen.getNext at h
  dsimp only at h
  split at h
  · split at h
    · cases h
    · rename_i ts rest hs
      split at h
      · cases h
        exact ⟨p.g.bd, p.g.cur + 1, [], V3.zero, by rw [hs]; rfl⟩
      · rename_i t more ht
        have hm : Moved p { p with
            sphere := some (ts, t :: more)
            rc := G.cart w.lat t
            g := { p.g with cur := p.g.first } } :=
          ⟨p.g.bd, p.g.first, t :: more, G.cart w.lat t, by rw [hs]; rfl⟩
        split at h
        · cases h; exact hm
        · exact hm.trans (updater1_moved h)
  · have hm : Moved p { p with g := { p.g with cur := p.g.cur + 1 } } := by
      cases hs : p.sphere with
      | none => exact ⟨p.g.bd, p.g.cur + 1, [], p.rc, by cases p; simp_all⟩
      | some x => exact ⟨p.g.bd, p.g.cur + 1, x.2, p.rc, by cases p; simp_all⟩
    exact hm.trans (updater1_moved h)

theorem padvance_moved (w : World G) (p : PerGen G) : ∀ p', p.advance w = some p' → Moved p p' := by
  have hrefl : ∀ p : PerGen G, Moved p p := by
    intro p
    cases hs : p.sphere with
    | none => exact ⟨p.g.bd, p.g.cur, [], p.rc, by cases p; simp_all⟩
    | some x => exact ⟨p.g.bd, p.g.cur, x.2, p.rc, by cases p; simp_all⟩
  fun_induction PerGen.advance w p with
  | case1 p h => intro p' h'; cases h'; exact hrefl _
  | case2 p h hb hn => intro p' h'; cases h'
  | case3 p h hb p1 hn ih => intro p' h'; exact (getNext_moved hn).trans (ih p' h')
  | case4 p h hb => intro p' h'; cases h'; exact hrefl _

theorem pnext_moved {w : World G} {p p' : PerGen G} (h : p.next w = some p') : Moved p p' := by
  unfold PerGen.next at h
  split at h
  · cases h
  · rename_i p1 h1
    exact (getNext_moved h1).trans (padvance_moved w _ _ h)

theorem prewind_moved {w : World G} {p p' : PerGen G} (h : p.rewind w = some p') :
    Moved { p with sphere := some (p.points w, []) } p' := by
  unfold PerGen.rewind at h
  dsimp only at h
  obtain ⟨rest, e⟩ := withSphere_eq w p
  rw [e] at h
  dsimp only at h
  split at h
  · cases h
    exact ⟨p.g.bd, p.g.first, rest, p.rc, rfl⟩
  · split at h
    · cases h
    · rename_i p2 h2
      unfold PerGen.rewindSym at h2
      dsimp only at h2
      have := (updater1_moved h2).trans (padvance_moved w _ _ h)
      obtain ⟨b, k, rest', rc, rfl⟩ := this
      exact ⟨b, k, rest', rc, rfl⟩

theorem PHolds.moved {n : Nat} {a : PAsked G} {w : World G} {p p' : PerGen G} (h : PHolds n a (w, p))
    (hm : Moved p p') : PHolds n a (w, p') := by
  obtain ⟨b, k, rest, rc, rfl⟩ := hm
  refine ⟨h.hworld, h.hsnap, h.hsite, h.hc, h.hsel, h.hall, h.hlast, ?_⟩
  have := h.hpts
  simp only at this ⊢
  rw [← this]
  cases p.sphere with
  | none => rfl
  | some x => rfl

theorem pholds_step {n : Nat} {a : PAsked G} {s s' : World G × PerGen G} (h : PHolds n a s) (o : POp G)
    (hs : pstep s o = some s') : PHolds n (pask a o) s' := by
  obtain ⟨w, p⟩ := s
  have hcc := h.hc
  have hww := h.hworld
  have hpp := h.hpts
  simp only at hcc hww hpp
  cases o with
  | anchor k =>
    simp only [pstep, PerGen.selectAnchor, Option.map_eq_some_iff] at hs
    obtain ⟨p', h1, rfl⟩ := hs
    unfold Gen.selectAnchor at h1
    split at h1
    · cases h1
    · rename_i g1 hg1
      split at hg1
      · cases hg1
      · cases hg1
        split at h1
        · cases h1
        · rename_i q hq
          cases h1
          refine ⟨h.hworld, h.hsnap, rfl, ?_, h.hsel, h.hall, h.hlast, h.hpts⟩
          have hsn := h.hsnap
          simp only at hsn
          simp only [pask, Gen.setFinished, hcc]
          rw [← hsn, List.getD, hq]; rfl
  | range f l =>
    simp only [pstep, Gen.selectRange] at hs
    split at hs
    · rename_i hfl
      cases hs
      have ha := h.hall
      simp only at ha
      rw [ha, List.length_range] at hfl
      refine ⟨h.hworld, h.hsnap, h.hsite, h.hc, ?_, h.hall, ?_, h.hpts⟩
      · simp only [Gen.sel, Gen.setFinished, pask, ha]
        rw [List.take_range, Nat.min_eq_left hfl.2]
      · simp only [Gen.setFinished, ha, List.length_range]; exact hfl.2
    · cases hs
  | sites v =>
    simp only [pstep, Gen.selectSites] at hs
    cases hs
    exact ⟨h.hworld, h.hsnap, h.hsite, h.hc, by simp [Gen.sel, Gen.setFinished, pask], h.hall, Nat.le_refl _, h.hpts⟩
  | iters v f l =>
    simp only [pstep, Gen.selectIters] at hs
    split at hs
    · rename_i hfl
      cases hs
      exact ⟨h.hworld, h.hsnap, h.hsite, h.hc, rfl, h.hall, hfl.2, h.hpts⟩
    · cases hs
  | rmin r =>
    simp only [pstep, PerGen.setRmin, Gen.setRmin] at hs
    cases hs
    refine ⟨h.hworld, h.hsnap, ?_, ?_, ?_, ?_, ?_, ?_⟩
    · simp only; split <;> exact h.hsite
    · simp only; split <;> simp [pask, Gen.setFinished, hcc]
    · simp only; split <;> exact h.hsel
    · simp only; split <;> exact h.hall
    · simp only; split <;> exact h.hlast
    · simp only [pask, hcc]
      by_cases e : r = a.rmin
      · rw [if_pos e, if_neg (not_not.2 e.symm)]; exact hpp
      · rw [if_neg e, if_pos (Ne.symm e)]; rfl
  | rmax r =>
    simp only [pstep, PerGen.setRmax, Gen.setRmax] at hs
    cases hs
    refine ⟨h.hworld, h.hsnap, ?_, ?_, ?_, ?_, ?_, ?_⟩
    · simp only; split <;> exact h.hsite
    · simp only; split <;> simp [pask, Gen.setFinished, hcc]
    · simp only; split <;> exact h.hsel
    · simp only; split <;> exact h.hall
    · simp only; split <;> exact h.hlast
    · simp only [pask, hcc]
      by_cases e : r = a.rmax
      · rw [if_pos e, if_neg (not_not.2 e.symm)]; exact hpp
      · rw [if_neg e, if_pos (Ne.symm e)]; rfl
  | rewind =>
    simp only [pstep, Option.map_eq_some_iff] at hs
    obtain ⟨p', h1, rfl⟩ := hs
    have h0 : PHolds n (pask a .rewind) (w, { p with sphere := some (p.points w, []) }) := by
      refine ⟨h.hworld, h.hsnap, h.hsite, h.hc, h.hsel, h.hall, h.hlast, ?_⟩
      simp only [pask, Option.map_some]
      rw [← h.points]
    exact h0.moved (prewind_moved h1)
  | next =>
    simp only [pstep, Option.map_eq_some_iff] at hs
    obtain ⟨p', h1, rfl⟩ := hs
    exact h.moved (pnext_moved h1)
  | loop =>
    simp only [pstep, Option.map_eq_some_iff] at hs
    obtain ⟨r, h1, rfl⟩ := hs
    by_cases hin : ∀ j ∈ p.g.sel, j < p.snap.length
    · obtain ⟨b, k, rest, rc, e, _⟩ := (ploop_exact w p h.hlast).1 hin
      rw [e] at h1
      cases h1
      refine ⟨h.hworld, h.hsnap, h.hsite, h.hc, h.hsel, h.hall, h.hlast, ?_⟩
      simp only [pask, Option.map_some]
      rw [← h.points]
    · push Not at hin
      rw [(ploop_exact w p h.hlast).2 hin] at h1
      cases h1
  | edit q =>
    simp only [pstep] at hs
    cases hs
    exact ⟨by simp only [pask, hww], h.hsnap, h.hsite, h.hc, h.hsel, h.hall, h.hlast, h.hpts⟩
  | lattice L =>
    simp only [pstep] at hs
    cases hs
    exact ⟨by simp only [pask, hww], h.hsnap, h.hsite, h.hc, h.hsel, h.hall, h.hlast, h.hpts⟩

theorem pholds_run {n : Nat} (ops : List (POp G)) : ∀ {a : PAsked G} {s s' : World G × PerGen G}, PHolds n a s →
    prun s ops = some s' → PHolds n (ops.foldl pask a) s' := by
  induction ops with
  | nil => intro a s s' h hr; cases hr; exact h
  | cons o os ih =>
    intro a s s' h hr
    simp only [prun] at hr
    split at hr
    · cases hr
    · rename_i s1 h1
      exact ih (pholds_step h o h1) hr

/-- **C78**, periodic: after any history a new loop visits exactly the bonds that the request describes and ends
finished; it reads outside an array exactly when a selected site did not exist at the creation of the generator. -/
theorem periodic_loop_after_any_history (w0 : World G) (ops : List (POp G)) (w : World G) (p : PerGen G)
    (h : prun (w0, PerGen.new w0) ops = some (w, p)) :
    ((∀ j ∈ (pasked w0 ops).sel, j < w0.pos.length) →
      ∃ p', p.loop w = some ((pasked w0 ops).bonds, p') ∧ p'.g.finished) ∧
    ((∃ j ∈ (pasked w0 ops).sel, w0.pos.length ≤ j) → p.loop w = none) := by
  have hh := pholds_run ops (pholds_new w0) h
  have hsn : ∀ (ops : List (POp G)) (a : PAsked G), (ops.foldl pask a).snap = a.snap := by
    intro ops
    induction ops with
    | nil => intro a; rfl
    | cons o os ih => intro a; rw [List.foldl_cons, ih]; cases o <;> rfl
  have hlen : p.snap.length = w0.pos.length := by
    rw [show p.snap = _ from hh.hsnap, hsn]; simp [pasked0]
  obtain ⟨h1, h2⟩ := ploop_exact w p hh.hlast
  have hsel : p.g.sel = (pasked w0 ops).sel := hh.hsel
  rw [hsel, hlen] at h1 h2
  refine ⟨fun hin => ?_, h2⟩
  obtain ⟨b, k, rest, rc, e, hk⟩ := h1 hin
  refine ⟨{ p with
            sphere := some (p.points w, rest)
            rc := rc
            g := { p.g with
                   cur := k
                   bd := b } }, ?_, hk⟩
  rw [e]
  have hp : p.points w = (pasked w0 ops).points := hh.points
  have hc : p.g.c = _ := hh.hc
  have hw : w = _ := hh.hworld
  have hs : p.snap = _ := hh.hsnap
  have : (cartPts w (p.points w)).flatMap (siteBonds p.g.c p.snap (pasked w0 ops).sel)
      = (pasked w0 ops).bonds := by
    unfold PAsked.bonds cartPts
    rw [hp, hc, hs, hw]
    rfl
  rw [this]

/-- **C78**, periodic: while the lattice is not changed, the lattice points are always those for the limits of now,
in whatever order limits, loops and selections are made. -/
theorem periodic_points_current (w0 : World G) (ops : List (POp G)) (h : ∀ L, POp.lattice L ∉ ops) :
    (pasked w0 ops).world.lat = w0.lat ∧
    (pasked w0 ops).points = G.visits w0.lat ((pasked w0 ops).rmin - G.diag w0.lat)
      ((pasked w0 ops).rmax + G.diag w0.lat) := by
  let Inv : PAsked G → Prop := fun a => a.world.lat = w0.lat ∧
    (a.pts = none ∨ a.pts = some (G.visits w0.lat (a.rmin - G.diag w0.lat) (a.rmax + G.diag w0.lat)))
  have hpt : ∀ a, Inv a → a.points = G.visits w0.lat (a.rmin - G.diag w0.lat) (a.rmax + G.diag w0.lat) := by
    rintro a ⟨h1, h2⟩
    unfold PAsked.points
    rcases h2 with h2 | h2 <;> rw [h2]
    · rw [Option.getD_none, h1]
    · rfl
  have key : ∀ (ops : List (POp G)) (a : PAsked G), (∀ L, POp.lattice L ∉ ops) → Inv a →
      Inv (ops.foldl pask a) := by
    intro ops
    induction ops with
    | nil => intro a _ ha; exact ha
    | cons o os ih =>
      intro a h ha
      rw [List.foldl_cons]
      refine ih _ (fun L hL => h L (List.mem_cons_of_mem _ hL)) ?_
      cases o with
      | lattice L => exact absurd (by simp) (h L)
      | rmin r =>
        refine ⟨ha.1, ?_⟩
        simp only [pask]
        by_cases e : r = a.rmin
        · rw [if_pos e, e]; exact ha.2
        · rw [if_neg e]; exact Or.inl rfl
      | rmax r =>
        refine ⟨ha.1, ?_⟩
        simp only [pask]
        by_cases e : r = a.rmax
        · rw [if_pos e, e]; exact ha.2
        · rw [if_neg e]; exact Or.inl rfl
      | rewind => exact ⟨ha.1, Or.inr (congrArg some (hpt a ha))⟩
      | loop => exact ⟨ha.1, Or.inr (congrArg some (hpt a ha))⟩
      | _ => exact ha
  have hi := key ops (pasked0 w0) h ⟨rfl, Or.inl rfl⟩
  exact ⟨hi.1, hpt _ hi⟩

/-- **C78** (defect), periodic: edits of the atoms in place are never seen: the bonds use the positions at the creation
of the generator (a plain generator uses the positions of now). -/
theorem periodic_positions_frozen_bug (w0 : World G) (ops : List (POp G)) (q : List V3) :
    (pasked w0 (ops ++ [.edit q])).bonds = (pasked w0 ops).bonds ∧
    (pasked w0 ops).snap = w0.pos.map (G.ucv w0.lat) := by
  refine ⟨?_, ?_⟩
  · unfold pasked
    rw [List.foldl_append]
    rfl
  · have hsn : ∀ (ops : List (POp G)) (a : PAsked G), (ops.foldl pask a).snap = a.snap := by
      intro ops
      induction ops with
      | nil => intro a; rfl
      | cons o os ih => intro a; rw [List.foldl_cons, ih]; cases o <;> rfl
    exact hsn ops _

theorem pask_rmax_points (a : PAsked G) (r : ℝ) (hr : r ≠ a.rmax) : (pask a (.rmax r)).points
    = G.visits a.world.lat (a.rmin - G.diag a.world.lat) (r + G.diag a.world.lat) := by
  have : (pask a (.rmax r)).pts = none := if_neg hr
  unfold PAsked.points
  rw [this]
  rfl

/-- **C78** (defect), periodic: after a loop, a change of the lattice in place leaves the lattice points of the old
lattice in use, now placed with the new lattice; a limit set to a different value brings the right points back. -/
theorem periodic_lattice_edit_bug (w0 : World G) (ops : List (POp G)) (L : G.Lat) :
    (pasked w0 (ops ++ [.loop, .lattice L])).points = (pasked w0 ops).points ∧
    (pasked w0 (ops ++ [.loop, .lattice L])).world.lat = L ∧
    ∀ r, r ≠ (pasked w0 ops).rmax →
      (pasked w0 (ops ++ [.loop, .lattice L, .rmax r])).points
        = G.visits L ((pasked w0 ops).rmin - G.diag L) (r + G.diag L) := by
  unfold pasked
  simp only [List.foldl_append, List.foldl_cons, List.foldl_nil]
  refine ⟨rfl, rfl, fun r hr => ?_⟩
  exact pask_rmax_points (pask (pask (ops.foldl pask (pasked0 w0)) .loop) (.lattice L)) r hr

/-- **C78** (defect), periodic: a limit set to a new value inside a loop makes the following `next()` use a null
pointer. -/
theorem limit_change_inside_loop_bug (w : World G) (p : PerGen G) (r : ℝ) :
    (r ≠ p.g.c.rmin → (p.setRmin r).g.finished ∧ (p.setRmin r).next w = none) ∧
    (r ≠ p.g.c.rmax → (p.setRmax r).g.finished ∧ (p.setRmax r).next w = none) := by
  constructor
  · intro hr
    have hf : (p.setRmin r).g.last ≤ (p.setRmin r).g.cur := by
      simp only [PerGen.setRmin, Gen.setRmin]
      rw [if_pos hr]; exact Nat.le_refl _
    refine ⟨hf, ?_⟩
    have hs : (p.setRmin r).sphere = none := by
      simp only [PerGen.setRmin]; rw [if_pos (Ne.symm hr)]
    unfold PerGen.next PerGen.getNext
    dsimp only
    rw [if_pos (Nat.le_succ_of_le hf), hs]
  · intro hr
    have hf : (p.setRmax r).g.last ≤ (p.setRmax r).g.cur := by
      simp only [PerGen.setRmax, Gen.setRmax]
      rw [if_pos hr]; exact Nat.le_refl _
    refine ⟨hf, ?_⟩
    have hs : (p.setRmax r).sphere = none := by
      simp only [PerGen.setRmax]; rw [if_pos (Ne.symm hr)]
    unfold PerGen.next PerGen.getNext
    dsimp only
    rw [if_pos (Nat.le_succ_of_le hf), hs]

/-- **C78** (defect), periodic: a finished generator can come alive again.  When a selection is made inside a loop
with lattice points left, `finished()` is true, but `next()` continues with the next lattice point, exactly as from
the last site of the present one. -/
theorem selection_inside_loop_continues_bug (w : World G) (p : PerGen G) (ts : List G.Pt) (s t : G.Pt)
    (more : List G.Pt) (hs : p.sphere = some (ts, s :: t :: more)) (hl : 0 < p.g.last) :
    ({ p with g := p.g.setFinished } : PerGen G).g.finished ∧
    ({ p with g := p.g.setFinished } : PerGen G).next w
      = ({ p with g := { p.g with cur := p.g.last - 1 } } : PerGen G).next w ∧
    ∀ p', ({ p with g := p.g.setFinished } : PerGen G).getNext w = some p' →
      p'.g.cur = p.g.first ∧ p'.rc = G.cart w.lat t := by
  have e : ({ p with g := p.g.setFinished } : PerGen G).getNext w
      = ({ p with g := { p.g with cur := p.g.last - 1 } } : PerGen G).getNext w := by
    unfold PerGen.getNext
    dsimp only [Gen.setFinished]
    rw [if_pos (Nat.le_succ _), if_pos (by omega), hs]
    rfl
  refine ⟨Nat.le_refl _, ?_, ?_⟩
  · unfold PerGen.next; rw [e]
  · intro p' h
    unfold PerGen.getNext at h
    dsimp only [Gen.setFinished] at h
    rw [if_pos (Nat.le_succ _), hs] at h
    dsimp only [List.tail_cons] at h
    split at h
    · cases h; exact ⟨rfl, rfl⟩
    · obtain ⟨b, rfl⟩ := PerGen.updater1_shape h
      exact ⟨rfl, rfl⟩

/-- The points really differ: a lattice with two points in reach that is replaced by one with three. -/
example : let G : Geo := ⟨Nat, Nat, fun _ _ => V3.zero, fun L _ _ => List.range L, fun _ => 0, fun _ v => v⟩
    let w0 : World G := ⟨(2 : Nat), []⟩
    (pasked w0 [.rmax 1, .loop, .lattice (3 : Nat)]).points = [0, 1] ∧
    (pasked w0 [.rmax 1, .lattice (3 : Nat)]).points = [0, 1, 2] := by
  intro G w0
  refine ⟨?_, ?_⟩
  · show (pasked w0 ([.rmax 1] ++ [.loop, .lattice (3 : Nat)])).points = [0, 1]
    rw [(periodic_lattice_edit_bug w0 [.rmax 1] (3 : Nat)).1]
    show (pask (pasked0 w0) (.rmax 1)).points = _
    rw [pask_rmax_points _ _ (by simp [pasked0])]
    rfl
  · show (pask (pask (pasked0 w0) (.rmax 1)) (.lattice (3 : Nat))).points = _
    have : (pask (pask (pasked0 w0) (.rmax 1)) (.lattice (3 : Nat))).pts = none :=
      if_neg (by simp [pasked0])
    unfold PAsked.points
    rw [this]
    rfl

/-- A call within `N` sites, apart from `next()`. -/
def POp.within (N : Nat) : POp G → Prop
  | .anchor a => a < N
  | .range f l => f ≤ N ∧ l ≤ N
  | .sites s => ∀ j ∈ s, j < N
  | .iters v f l => f ≤ v.length ∧ l ≤ v.length ∧ ∀ j ∈ v, j < N
  | .edit p => N ≤ p.length
  | .next => False
  | _ => True

/-- **C78**, periodic: whole loops and settings in any order, with sites that exist, never read outside an array
or through a null pointer, also after edits of the lattice and of the atoms. -/
theorem periodic_loops_never_fail (w0 : World G) (ops : List (POp G)) (h : ∀ o ∈ ops, o.within w0.pos.length) :
    ∃ s, prun (w0, PerGen.new w0) ops = some s := by
  let Ok : World G × PerGen G → Prop := fun s => w0.pos.length ≤ s.1.pos.length ∧
    s.2.snap.length = w0.pos.length ∧ s.2.g.all = List.range w0.pos.length ∧
    (∀ j ∈ s.2.g.buf, j < w0.pos.length) ∧ s.2.g.last ≤ s.2.g.buf.length
  have key : ∀ (ops : List (POp G)) (s : World G × PerGen G), Ok s → (∀ o ∈ ops, o.within w0.pos.length) →
      ∃ s', prun s ops = some s' := by
    intro ops
    induction ops with
    | nil => intro s _ _; exact ⟨s, rfl⟩
    | cons o os ih =>
      intro s hs ho
      have hstep : ∃ s', pstep s o = some s' ∧ Ok s' := by
        obtain ⟨w, p⟩ := s
        obtain ⟨o1, o2, o3, o4, o5⟩ := hs
        simp only at o1 o2 o3 o4 o5
        have hoo := ho o (by simp)
        cases o with
        | anchor a =>
          have ha : a < w0.pos.length := hoo
          have hl : a < w.pos.length := Nat.lt_of_lt_of_le ha o1
          have hl2 : a < p.snap.length := by omega
          refine ⟨(w, { p with g := { p.g with
              anchor := a
              cur := p.g.last
              c := ⟨p.snap[a], p.g.c.rmin, p.g.c.rmax⟩ } }), ?_, ⟨o1, o2, o3, o4, o5⟩⟩
          simp only [pstep, PerGen.selectAnchor, Gen.selectAnchor]
          rw [List.getElem?_eq_getElem hl]
          simp only
          rw [List.getElem?_eq_getElem hl2]
          rfl
        | range f l =>
          have hfl : f ≤ w0.pos.length ∧ l ≤ w0.pos.length := hoo
          refine ⟨(w, { p with g := ({ p.g with
              buf := p.g.all
              first := f
              last := l } : Gen).setFinished }), ?_, ⟨o1, o2, o3, ?_, ?_⟩⟩
          · simp only [pstep, Gen.selectRange]
            rw [if_pos (by rw [o3, List.length_range]; exact hfl)]; rfl
          · simp only [Gen.setFinished, o3, List.mem_range]; exact fun j hj => hj
          · simp only [Gen.setFinished, o3, List.length_range]; exact hfl.2
        | sites v => exact ⟨_, rfl, ⟨o1, o2, o3, hoo, Nat.le_refl _⟩⟩
        | iters v f l =>
          obtain ⟨h1, h2, h3⟩ : f ≤ v.length ∧ l ≤ v.length ∧ ∀ j ∈ v, j < w0.pos.length := hoo
          refine ⟨(w, { p with g := ({ p.g with
              buf := v
              first := f
              last := l } : Gen).setFinished }), ?_, ⟨o1, o2, o3, h3, h2⟩⟩
          simp only [pstep, Gen.selectIters]
          rw [if_pos ⟨h1, h2⟩]; rfl
        | rmin r =>
          refine ⟨_, rfl, ⟨o1, o2, ?_⟩⟩
          simp only [PerGen.setRmin, Gen.setRmin]
          split <;> exact ⟨o3, o4, o5⟩
        | rmax r =>
          refine ⟨_, rfl, ⟨o1, o2, ?_⟩⟩
          simp only [PerGen.setRmax, Gen.setRmax]
          split <;> exact ⟨o3, o4, o5⟩
        | rewind =>
          obtain ⟨b, k, rest, rc, e, _⟩ := (ploop_exact w p o5).1 (by
            intro j hj
            rw [o2]
            exact o4 j (List.mem_of_mem_take (List.mem_of_mem_drop hj)))
          unfold PerGen.loop at e
          cases hrw : p.rewind w with
          | none => rw [hrw] at e; cases e
          | some p' =>
            refine ⟨(w, p'), by simp only [pstep]; rw [hrw]; rfl, ?_⟩
            obtain ⟨b, k, rest, rc, rfl⟩ := prewind_moved hrw
            exact ⟨o1, o2, o3, o4, o5⟩
        | next => exact absurd hoo (by simp [POp.within])
        | loop =>
          obtain ⟨b, k, rest, rc, e, _⟩ := (ploop_exact w p o5).1 (by
            intro j hj
            rw [o2]
            exact o4 j (List.mem_of_mem_take (List.mem_of_mem_drop hj)))
          exact ⟨_, by simp only [pstep]; rw [e]; rfl, ⟨o1, o2, o3, o4, o5⟩⟩
        | edit q => exact ⟨_, rfl, ⟨hoo, o2, o3, o4, o5⟩⟩
        | lattice L => exact ⟨_, rfl, ⟨o1, o2, o3, o4, o5⟩⟩
      obtain ⟨s1, h1, h2⟩ := hstep
      obtain ⟨s2, h3⟩ := ih s1 h2 (fun o' ho' => ho o' (List.mem_cons_of_mem _ ho'))
      exact ⟨s2, by simp only [prun]; rw [h1]; exact h3⟩
  refine key ops _ ⟨Nat.le_refl _, by simp [PerGen.new], rfl, ?_, by simp [PerGen.new, Gen.new]⟩ h
  simp only [PerGen.new, Gen.new, List.mem_range]
  exact fun j hj => hj

/-! ### The lattices of the library -/

open Verif.Lattice Verif.Points Verif.Periodic in
/-- The lattice of the library with its enumerator of points (`SphereVisits` determines one list of points). -/
noncomputable def latGeo : Geo where
  Lat := Lat
  Pt := ℤ × ℤ × ℤ
  cart := fun L t => L.cartesian (tripVec t)
  visits := fun L lo hi => (sphere_terminates lo hi (latPar L)).choose
  diag := fun L => L.ucMaxDiagonalLength
  ucv := fun L v => L.ucvCartesian v

theorem head_form {α : Type} (f : α → V3) (l : List α) :
    (if l = [] then [V3.zero] else l.map f) = (l.map f).headD V3.zero :: (l.map f).tail := by
  cases l with
  | nil => simp
  | cons t ts => simp

open Verif.Lattice Verif.Points Verif.Periodic in
/-- **C78**: for a generator of the library, used in any way while the lattice and the atoms are not changed and after
an anchor was selected, the loop is the one of C15, which visits exactly the images in range. -/
theorem periodic_object_bonds (w0 : World latGeo) (ops : List (POp latGeo)) (hL : ∀ L, POp.lattice L ∉ ops)
    (a : Nat) (ha : (pasked w0 ops).r0 = w0.lat.ucvCartesian (w0.pos.getD a V3.zero))
    (hsel : ∀ j ∈ (pasked w0 ops).sel, j < w0.pos.length) (old : Cur) :
    PeriodicBonds w0.lat (fun i => w0.pos.getD i V3.zero)
      ⟨(pasked w0 ops).rmin, (pasked w0 ops).rmax, none⟩ a (pasked w0 ops).sel old (pasked w0 ops).bonds := by
  obtain ⟨h1, h2⟩ := periodic_points_current w0 ops hL
  refine ⟨_, _, _, rfl, (sphere_terminates ((pasked w0 ops).rmin - w0.lat.ucMaxDiagonalLength)
    ((pasked w0 ops).rmax + w0.lat.ucMaxDiagonalLength) (latPar w0.lat)).choose_spec.1, ?_⟩
  rw [per_loop_exact]
  unfold PAsked.bonds
  have hpt : (pasked w0 ops).points = (sphere_terminates ((pasked w0 ops).rmin - w0.lat.ucMaxDiagonalLength)
    ((pasked w0 ops).rmax + w0.lat.ucMaxDiagonalLength) (latPar w0.lat)).choose := h2
  rw [← hpt, h1, ha]
  have hsn : (pasked w0 ops).snap = w0.pos.map (latGeo.ucv w0.lat) :=
    (periodic_positions_frozen_bug w0 ops []).2
  have hget : ∀ j ∈ (pasked w0 ops).sel, (pasked w0 ops).snap.getD j V3.zero
      = w0.lat.ucvCartesian (w0.pos.getD j V3.zero) := by
    intro j hj
    have := hsel j hj
    rw [hsn]
    simp [List.getD, this, latGeo]
  have hin : ∀ t, (pasked w0 ops).sel.flatMap (fun j => specBond
        ⟨w0.lat.ucvCartesian (w0.pos.getD a V3.zero), (pasked w0 ops).rmin, (pasked w0 ops).rmax⟩ j
        (V3.add t ((pasked w0 ops).snap.getD j V3.zero)))
      = (pasked w0 ops).sel.flatMap (fun j => specBond
        ⟨w0.lat.ucvCartesian (w0.pos.getD a V3.zero), (pasked w0 ops).rmin, (pasked w0 ops).rmax⟩ j
        (V3.add t (w0.lat.ucvCartesian (w0.pos.getD j V3.zero)))) := by
    intro t
    apply List.flatMap_congr
    intro j hj
    rw [hget j hj]
  simp only [hin]
  exact congrArg (List.flatMap _) (head_form (latGeo.cart w0.lat) (pasked w0 ops).points)

open Verif.Lattice in
/-- The hypotheses hold for two atoms in a unit cube, with settings and loops mixed: the anchor is atom 1. -/
example (L : Lat) (P Q : V3) :
    let w0 : World latGeo := ⟨L, [P, Q]⟩
    let ops : List (POp latGeo) := [.rmax 3, .loop, .anchor 1, .rmin 1, .loop, .range 0 1, .rmax 4]
    (∃ s, prun (w0, PerGen.new w0) ops = some s) ∧ (∀ L, POp.lattice L ∉ ops) ∧
      (pasked w0 ops).r0 = w0.lat.ucvCartesian (w0.pos.getD 1 V3.zero) ∧ (pasked w0 ops).sel = [0] ∧
      (pasked w0 ops).rmin = 1 ∧ (pasked w0 ops).rmax = 4 := by
  intro w0 ops
  refine ⟨?_, ?_, rfl, rfl, rfl, rfl⟩
  · apply periodic_loops_never_fail
    intro o ho
    simp only [ops, List.mem_cons, List.not_mem_nil, or_false] at ho
    rcases ho with rfl | rfl | rfl | rfl | rfl | rfl | rfl <;> simp [POp.within, w0]
  · intro L h
    simp [ops] at h

end Verif.GenObj
