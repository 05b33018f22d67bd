import Verif.Model.GenObject
import Verif.Lemmas.BondGen
/-! Lemmas for the bond generator as an object. -/
namespace Verif.GenObj
open Verif.R3 Verif.BondGen Classical

/-- The sites that the iterators select. -/
def Gen.sel (g : Gen) : List Nat := (g.buf.take g.last).drop g.first

/-- The sites from the current one on. -/
def Gen.rest (g : Gen) : List Nat := (g.buf.take g.last).drop g.cur

theorem rest_nil_of_finished {g : Gen} (h : g.last ≤ g.cur) : g.rest = [] := by
  unfold Gen.rest
  apply List.drop_eq_nil_of_le
  rw [List.length_take]
  omega

theorem rest_cons {g : Gen} (hw : g.last ≤ g.buf.length) (h : ¬ g.last ≤ g.cur) :
    ∃ i, g.site1 = some i ∧ g.rest = i :: ({ g with cur := g.cur + 1 } : Gen).rest := by
  have h1 : g.cur < g.buf.length := by omega
  refine ⟨g.buf[g.cur], by simp [Gen.site1, h1], ?_⟩
  unfold Gen.rest
  have h2 : g.cur < (g.buf.take g.last).length := by rw [List.length_take]; omega
  rw [List.drop_eq_getElem_cons h2]
  simp

/-! ### Base -/

theorem advance_fin {pos : List V3} {g : Gen} (h : g.last ≤ g.cur) : advance pos g = some g := by
  unfold advance; rw [dif_pos h]

theorem collect_fin {pos : List V3} {g : Gen} (h : g.last ≤ g.cur) : collect pos g = some ([], g) := by
  unfold collect; rw [dif_pos h]

theorem advance_bad {pos : List V3} {g : Gen} (h : ¬ g.last ≤ g.cur) (hb : badBond g.c g.bd.dist) :
    advance pos g = next pos g := by
  rw [advance.eq_1, dif_neg h, if_pos hb]
  unfold next
  split <;> rename_i e <;> rw [e]

theorem advance_good {pos : List V3} {g : Gen} (hb : ¬ badBond g.c g.bd.dist) :
    advance pos g = some g := by
  rw [advance.eq_1]
  simp [hb]

theorem collect_step {pos : List V3} {g : Gen} {i : Nat} (h : ¬ g.last ≤ g.cur) (hi : g.site1 = some i) :
    collect pos g = ((next pos g).bind (collect pos)).map
      fun r => ((⟨i, g.bd.r1, g.bd.r01, g.bd.dist⟩ : Bond) :: r.1, r.2) := by
  rw [collect.eq_1, dif_neg h, hi]
  dsimp only
  split
  · rename_i e; rw [e]; rfl
  · rename_i g1 e
    rw [e]
    simp only [Option.bind_some]
    cases collect pos g1 with
    | none => rfl
    | some r => rfl

/-- One raw bond of the loop. -/
theorem unroll {pos : List V3} {g : Gen} {i : Nat} (h : ¬ g.last ≤ g.cur) (hi : g.site1 = some i) :
    (advance pos g).bind (collect pos) = ((next pos g).bind (collect pos)).map
      fun r => ((if ¬ badBond g.c g.bd.dist then [(⟨i, g.bd.r1, g.bd.r01, g.bd.dist⟩ : Bond)] else []) ++ r.1,
        r.2) := by
  by_cases hb : badBond g.c g.bd.dist
  · rw [advance_bad h hb, if_neg (not_not.2 hb)]
    cases (next pos g).bind (collect pos) with
    | none => rfl
    | some r => rfl
  · rw [advance_good hb, if_pos hb]
    exact collect_step h hi

/-- The loop from a state whose bond data are those of the current site. -/
theorem collect_exact (pos : List V3) (is : List Nat) : ∀ (g : Gen) (i : Nat) (old : Cur) (p : V3),
    g.last ≤ g.buf.length → g.rest = i :: is → g.bd = updateDistance g.c.r0 g.c.rmax old p →
    (((∀ j ∈ is, j < pos.length) → ∃ b, (advance pos g).bind (collect pos)
      = some (specBond g.c i p ++ is.flatMap (fun j => specBond g.c j (pos.getD j V3.zero)),
          { g with
            cur := g.last
            bd := b })) ∧
    ((∃ j ∈ is, pos.length ≤ j) → (advance pos g).bind (collect pos) = none)) := by
  induction is with
  | nil =>
    intro g i old p hw hr hbd
    have hnf : ¬ g.last ≤ g.cur := fun h => by rw [rest_nil_of_finished h] at hr; cases hr
    obtain ⟨i', hi, hr'⟩ := rest_cons hw hnf
    rw [hr] at hr'
    obtain ⟨rfl, h2⟩ := List.cons.inj hr'
    have hend : g.last ≤ g.cur + 1 := by
      by_contra hc
      obtain ⟨k, _, hk⟩ := rest_cons (g := { g with cur := g.cur + 1 }) hw hc
      rw [hk] at h2; cases h2
    have hcur : g.cur + 1 = g.last := by omega
    refine ⟨fun _ => ⟨g.bd, ?_⟩, fun h => by obtain ⟨j, hj, _⟩ := h; cases hj⟩
    rw [unroll hnf hi]
    have hn : next pos g = some { g with cur := g.cur + 1 } := by
      unfold next getNext
      dsimp only
      rw [if_pos hend]
      dsimp only
      rw [advance_fin hend]
    rw [hn, Option.bind_some, collect_fin hend]
    simp only [Option.map_some, List.append_nil, List.flatMap_nil]
    rw [hbd, spec_head, hcur, ← hbd]
  | cons j js ih =>
    intro g i old p hw hr hbd
    have hnf : ¬ g.last ≤ g.cur := fun h => by rw [rest_nil_of_finished h] at hr; cases hr
    obtain ⟨i', hi, hr'⟩ := rest_cons hw hnf
    rw [hr] at hr'
    obtain ⟨rfl, h2⟩ := List.cons.inj hr'
    have hnf1 : ¬ g.last ≤ g.cur + 1 := fun h => by
      rw [rest_nil_of_finished (g := { g with cur := g.cur + 1 }) h] at h2; cases h2
    obtain ⟨j', hj, hr2⟩ := rest_cons (g := { g with cur := g.cur + 1 }) hw hnf1
    rw [← h2] at hr2
    obtain ⟨rfl, h3⟩ := List.cons.inj hr2
    rw [unroll hnf hi]
    have hn : next pos g = (rewindSym pos { g with cur := g.cur + 1 }).bind (advance pos) := by
      unfold next getNext
      dsimp only
      rw [if_neg hnf1]
      cases rewindSym pos { g with cur := g.cur + 1 } with
      | none => rfl
      | some _ => rfl
    by_cases hjn : j < pos.length
    · have hrs : rewindSym pos { g with cur := g.cur + 1 } = some { g with
            cur := g.cur + 1
            bd := updateDistance g.c.r0 g.c.rmax g.bd (pos.getD j V3.zero) } := by
        unfold rewindSym
        rw [hj]
        simp only
        rw [List.getElem?_eq_getElem hjn]
        simp [List.getD, List.getElem?_eq_getElem hjn]
      rw [hn, hrs]
      obtain ⟨ih1, ih2⟩ := ih { g with
            cur := g.cur + 1
            bd := updateDistance g.c.r0 g.c.rmax g.bd (pos.getD j V3.zero) } j g.bd (pos.getD j V3.zero)
            hw h2.symm rfl
      simp only [Option.bind_some]
      refine ⟨fun hall => ?_, fun hex => ?_⟩
      · obtain ⟨b, hb⟩ := ih1 fun k hk => hall k (List.mem_cons_of_mem _ hk)
        refine ⟨b, ?_⟩
        rw [hb]
        simp only [Option.map_some, List.flatMap_cons]
        rw [hbd, spec_head]
      · obtain ⟨k, hk, hkn⟩ := hex
        rcases List.mem_cons.1 hk with rfl | hk
        · omega
        · rw [ih2 ⟨k, hk, hkn⟩]; rfl
    · refine ⟨fun hall => absurd (hall j (by simp)) hjn, fun _ => ?_⟩
      have hrs : rewindSym pos { g with cur := g.cur + 1 } = none := by
        unfold rewindSym
        rw [hj]
        simp only
        rw [List.getElem?_eq_none (by omega)]
      rw [hn, hrs]; rfl

/-- The whole loop. -/
theorem loop_exact (pos : List V3) (g : Gen) (hw : g.last ≤ g.buf.length) :
    ((∀ j ∈ g.sel, j < pos.length) → ∃ b k, loop pos g
      = some (g.sel.flatMap (fun j => specBond g.c j (pos.getD j V3.zero)),
          { g with
            cur := k
            bd := b }) ∧ g.last ≤ k) ∧
    ((∃ j ∈ g.sel, pos.length ≤ j) → loop pos g = none) := by
  by_cases hf : g.last ≤ g.first
  · have hs : g.sel = [] := rest_nil_of_finished (g := { g with cur := g.first }) hf
    rw [hs]
    refine ⟨fun _ => ⟨g.bd, g.first, ?_, hf⟩, fun h => by obtain ⟨j, hj, _⟩ := h; cases hj⟩
    unfold loop rewind
    dsimp only
    rw [if_pos hf]
    dsimp only
    rw [collect_fin hf]; rfl
  · obtain ⟨i, hi, hr⟩ := rest_cons (g := { g with cur := g.first }) hw hf
    have hs : g.sel = i :: ({ g with cur := g.first + 1 } : Gen).rest := hr
    have hl : loop pos g = (rewindSym pos { g with cur := g.first }).bind
        fun g2 => (advance pos g2).bind (collect pos) := by
      unfold loop rewind
      dsimp only
      rw [if_neg hf]
      cases rewindSym pos { g with cur := g.first } with
      | none => rfl
      | some g2 =>
        simp only [Option.bind_some]
        cases advance pos g2 with
        | none => rfl
        | some _ => rfl
    rw [hl, hs]
    by_cases hin : i < pos.length
    · have hrs : rewindSym pos { g with cur := g.first } = some { g with
            cur := g.first
            bd := updateDistance g.c.r0 g.c.rmax g.bd (pos.getD i V3.zero) } := by
        unfold rewindSym
        rw [hi]
        simp only
        rw [List.getElem?_eq_getElem hin]
        simp [List.getD, List.getElem?_eq_getElem hin]
      rw [hrs, Option.bind_some]
      obtain ⟨h1, h2⟩ := collect_exact pos _ { g with
            cur := g.first
            bd := updateDistance g.c.r0 g.c.rmax g.bd (pos.getD i V3.zero) } i g.bd (pos.getD i V3.zero)
            hw hr rfl
      refine ⟨fun hall => ?_, fun hex => ?_⟩
      · obtain ⟨b, hb⟩ := h1 fun k hk => hall k (List.mem_cons_of_mem _ hk)
        exact ⟨b, g.last, by rw [hb]; rfl, Nat.le_refl _⟩
      · obtain ⟨k, hk, hkn⟩ := hex
        rcases List.mem_cons.1 hk with rfl | hk
        · omega
        · exact h2 ⟨k, hk, hkn⟩
    · refine ⟨fun hall => absurd (hall i (by simp)) hin, fun _ => ?_⟩
      have hrs : rewindSym pos { g with cur := g.first } = none := by
        unfold rewindSym
        rw [hi]
        simp only
        rw [List.getElem?_eq_none (by omega)]
      rw [hrs]; rfl

/-! ### Periodic -/

variable {G : Geo}

theorem padvance_fin {w : World G} {p : PerGen G} (h : p.g.last ≤ p.g.cur) : p.advance w = some p := by
  unfold PerGen.advance; rw [dif_pos h]

theorem pcollect_fin {w : World G} {p : PerGen G} (h : p.g.last ≤ p.g.cur) :
    p.collect w = some ([], p) := by
  unfold PerGen.collect; rw [dif_pos h]

theorem padvance_bad {w : World G} {p : PerGen G} (h : ¬ p.g.last ≤ p.g.cur)
    (hb : badBond p.g.c p.g.bd.dist) : p.advance w = p.next w := by
  rw [PerGen.advance.eq_1, dif_neg h, if_pos hb]
  unfold PerGen.next
  split <;> rename_i e <;> rw [e]

theorem padvance_good {w : World G} {p : PerGen G} (hb : ¬ badBond p.g.c p.g.bd.dist) :
    p.advance w = some p := by
  rw [PerGen.advance.eq_1]
  simp [hb]

theorem pcollect_step {w : World G} {p : PerGen G} {i : Nat} (h : ¬ p.g.last ≤ p.g.cur)
    (hi : p.g.site1 = some i) :
    p.collect w = ((p.next w).bind (PerGen.collect w)).map
      fun r => ((⟨i, p.g.bd.r1, p.g.bd.r01, p.g.bd.dist⟩ : Bond) :: r.1, r.2) := by
  rw [PerGen.collect.eq_1, dif_neg h, hi]
  dsimp only
  split
  · rename_i e; rw [e]; rfl
  · rename_i g1 e
    rw [e]
    simp only [Option.bind_some]
    cases PerGen.collect w g1 with
    | none => rfl
    | some r => rfl

theorem punroll {w : World G} {p : PerGen G} {i : Nat} (h : ¬ p.g.last ≤ p.g.cur)
    (hi : p.g.site1 = some i) :
    (p.advance w).bind (PerGen.collect w) = ((p.next w).bind (PerGen.collect w)).map
      fun r => ((if ¬ badBond p.g.c p.g.bd.dist then
        [(⟨i, p.g.bd.r1, p.g.bd.r01, p.g.bd.dist⟩ : Bond)] else []) ++ r.1, r.2) := by
  by_cases hb : badBond p.g.c p.g.bd.dist
  · rw [padvance_bad h hb, if_neg (not_not.2 hb)]
    cases (p.next w).bind (PerGen.collect w) with
    | none => rfl
    | some r => rfl
  · rw [padvance_good hb, if_pos hb]
    exact pcollect_step h hi

/-- The bonds to the sites `is` for one lattice point at `rc`. -/
noncomputable def siteBonds (c : Cfg) (snap : List V3) (is : List Nat) (rc : V3) : List Bond :=
  is.flatMap fun j => specBond c j (V3.add rc (snap.getD j V3.zero))

theorem updater1_ok {p : PerGen G} {i : Nat} (hi : p.g.site1 = some i) (h : i < p.snap.length) :
    p.updater1 = some { p with
      g := { p.g with
             bd := updateDistance p.g.c.r0 p.g.c.rmax p.g.bd (V3.add p.rc (p.snap.getD i V3.zero)) } } := by
  unfold PerGen.updater1
  rw [hi]
  simp only
  rw [List.getElem?_eq_getElem h]
  simp [List.getD, List.getElem?_eq_getElem h]

theorem updater1_none {p : PerGen G} {i : Nat} (hi : p.g.site1 = some i) (h : p.snap.length ≤ i) :
    p.updater1 = none := by
  unfold PerGen.updater1
  rw [hi]
  simp only
  rw [List.getElem?_eq_none h]

/-- What the loop does from a state at lattice point `p.rc` with the sites `i :: is` left and the lattice points
`more` to follow. -/
def CExact (w : World G) (more : List G.Pt) (is : List Nat) (p : PerGen G) (i : Nat) (q : V3)
    (ts : List G.Pt) : Prop :=
  ((∀ j ∈ is, j < p.snap.length) → (∀ j ∈ p.g.sel, j < p.snap.length) →
      ∃ b, (p.advance w).bind (PerGen.collect w)
      = some (specBond p.g.c i q ++ siteBonds p.g.c p.snap is p.rc
            ++ more.flatMap (fun t => siteBonds p.g.c p.snap p.g.sel (G.cart w.lat t)),
          { p with
            sphere := some (ts, [])
            rc := V3.zero
            g := { p.g with
                   cur := p.g.last
                   bd := b } })) ∧
    ((∃ j ∈ is, p.snap.length ≤ j) → (p.advance w).bind (PerGen.collect w) = none)

theorem pcollect_cons (w : World G) (more : List G.Pt) (j : Nat) (js : List Nat)
    (ih : ∀ (p : PerGen G) (i : Nat) (old : Cur) (q : V3) (ts rest : List G.Pt),
      p.g.last ≤ p.g.buf.length → p.g.first < p.g.last → p.g.rest = i :: js → p.sphere = some (ts, rest) →
      rest.tail = more →
      p.g.bd = updateDistance p.g.c.r0 p.g.c.rmax old q → CExact w more js p i q ts)
    (p : PerGen G) (i : Nat) (old : Cur) (q : V3) (ts rest : List G.Pt)
    (hw : p.g.last ≤ p.g.buf.length) (hfl : p.g.first < p.g.last) (hr : p.g.rest = i :: j :: js)
    (hsp : p.sphere = some (ts, rest)) (htl : rest.tail = more)
    (hbd : p.g.bd = updateDistance p.g.c.r0 p.g.c.rmax old q) : CExact w more (j :: js) p i q ts := by
  have hnf : ¬ p.g.last ≤ p.g.cur := fun h => by rw [rest_nil_of_finished h] at hr; cases hr
  obtain ⟨i', hi, hr'⟩ := rest_cons hw hnf
  rw [hr] at hr'
  obtain ⟨rfl, h2⟩ := List.cons.inj hr'
  have hnf1 : ¬ p.g.last ≤ p.g.cur + 1 := fun h => by
    rw [rest_nil_of_finished (g := { p.g with cur := p.g.cur + 1 }) h] at h2; cases h2
  obtain ⟨j', hj, hr2⟩ := rest_cons (g := { p.g with cur := p.g.cur + 1 }) hw hnf1
  rw [← h2] at hr2
  obtain ⟨rfl, h3⟩ := List.cons.inj hr2
  unfold CExact
  rw [punroll hnf hi]
  have hn : p.next w = (PerGen.updater1 { p with g := { p.g with cur := p.g.cur + 1 } }).bind
      (PerGen.advance w) := by
    unfold PerGen.next PerGen.getNext
    dsimp only
    rw [if_neg hnf1]
    cases PerGen.updater1 { p with g := { p.g with cur := p.g.cur + 1 } } with
    | none => rfl
    | some _ => rfl
  by_cases hjn : j < p.snap.length
  · rw [hn, updater1_ok (p := { p with g := { p.g with cur := p.g.cur + 1 } }) hj hjn]
    obtain ⟨ih1, ih2⟩ := ih { p with
          g := { p.g with
                 cur := p.g.cur + 1
                 bd := updateDistance p.g.c.r0 p.g.c.rmax p.g.bd
                   (V3.add p.rc (p.snap.getD j V3.zero)) } } j p.g.bd _ ts rest hw hfl h2.symm hsp htl rfl
    simp only [Option.bind_some]
    refine ⟨fun hall hsel => ?_, fun hex => ?_⟩
    · obtain ⟨b, hb⟩ := ih1 (fun k hk => hall k (List.mem_cons_of_mem _ hk)) hsel
      refine ⟨b, ?_⟩
      rw [hb]
      simp only [Option.map_some, siteBonds, List.flatMap_cons]
      rw [hbd, spec_head]
      simp only [List.append_assoc]
      rfl
    · obtain ⟨k, hk, hkn⟩ := hex
      rcases List.mem_cons.1 hk with rfl | hk
      · omega
      · rw [ih2 ⟨k, hk, hkn⟩]; rfl
  · refine ⟨fun hall => absurd (hall j (by simp)) hjn, fun _ => ?_⟩
    rw [hn, updater1_none (p := { p with g := { p.g with cur := p.g.cur + 1 } }) hj (by simpa using hjn)]; rfl

theorem pcollect_exact (w : World G) (more : List G.Pt) :
    ∀ (is : List Nat) (p : PerGen G) (i : Nat) (old : Cur) (q : V3) (ts rest : List G.Pt),
    p.g.last ≤ p.g.buf.length → p.g.first < p.g.last → p.g.rest = i :: is → p.sphere = some (ts, rest) →
    rest.tail = more →
    p.g.bd = updateDistance p.g.c.r0 p.g.c.rmax old q → CExact w more is p i q ts := by
  induction more with
  | nil =>
    intro is
    induction is with
    | nil =>
      intro p i old q ts rest hw hfl hr hsp htl hbd
      have hnf : ¬ p.g.last ≤ p.g.cur := fun h => by rw [rest_nil_of_finished h] at hr; cases hr
      obtain ⟨i', hi, hr'⟩ := rest_cons hw hnf
      rw [hr] at hr'
      obtain ⟨rfl, h2⟩ := List.cons.inj hr'
      have hend : p.g.last ≤ p.g.cur + 1 := by
        by_contra hc
        obtain ⟨k, _, hk⟩ := rest_cons (g := { p.g with cur := p.g.cur + 1 }) hw hc
        rw [hk] at h2; cases h2
      have hcur : p.g.cur + 1 = p.g.last := by omega
      refine ⟨fun _ _ => ⟨p.g.bd, ?_⟩, fun h => by obtain ⟨j, hj, _⟩ := h; cases hj⟩
      rw [punroll hnf hi]
      have hn : p.next w = some { p with
            sphere := some (ts, [])
            rc := V3.zero
            g := { p.g with cur := p.g.cur + 1 } } := by
        unfold PerGen.next PerGen.getNext
        dsimp only
        rw [if_pos hend, hsp]
        dsimp only
        rw [htl]
        dsimp only
        rw [padvance_fin hend]
      rw [hn, Option.bind_some, pcollect_fin hend]
      simp only [Option.map_some, List.append_nil, List.flatMap_nil, siteBonds]
      rw [hbd, spec_head, hcur, ← hbd]
    | cons j js ihi =>
      intro p i old q ts rest hw hfl hr hsp htl hbd
      exact pcollect_cons w [] j js ihi p i old q ts rest hw hfl hr hsp htl hbd
  | cons t more ihm =>
    intro is
    induction is with
    | nil =>
      intro p i old q ts rest hw hfl hr hsp htl hbd
      have hnf : ¬ p.g.last ≤ p.g.cur := fun h => by rw [rest_nil_of_finished h] at hr; cases hr
      obtain ⟨i', hi, hr'⟩ := rest_cons hw hnf
      rw [hr] at hr'
      obtain ⟨rfl, h2⟩ := List.cons.inj hr'
      have hend : p.g.last ≤ p.g.cur + 1 := by
        by_contra hc
        obtain ⟨k, _, hk⟩ := rest_cons (g := { p.g with cur := p.g.cur + 1 }) hw hc
        rw [hk] at h2; cases h2
      refine ⟨fun _ hsel => ?_, fun h => by obtain ⟨j, hj, _⟩ := h; cases hj⟩
      rw [punroll hnf hi]
      have hnl : ¬ p.g.last ≤ p.g.first := by omega
      obtain ⟨k, hk, hrk⟩ := rest_cons (g := { p.g with cur := p.g.first }) hw hnl
      have hks : p.g.sel = k :: ({ p.g with cur := p.g.first + 1 } : Gen).rest := hrk
      have hkn : k < p.snap.length := hsel k (by rw [hks]; simp)
      let p2 : PerGen G := { p with
            sphere := some (ts, t :: more)
            rc := G.cart w.lat t
            g := { p.g with cur := p.g.first } }
      have hn : p.next w = (p2.updater1).bind (PerGen.advance w) := by
        unfold PerGen.next PerGen.getNext
        dsimp only
        rw [if_pos hend, hsp]
        dsimp only
        rw [htl]
        dsimp only
        rw [if_neg hnl]
        show (match p2.updater1 with | none => none | some p1 => p1.advance w) = _
        cases p2.updater1 with
        | none => rfl
        | some _ => rfl
      rw [hn, updater1_ok (p := p2) hk hkn]
      simp only [Option.bind_some]
      obtain ⟨b, hb⟩ := (ihm _ { p2 with
          g := { p2.g with
                 bd := updateDistance p2.g.c.r0 p2.g.c.rmax p2.g.bd
                   (V3.add p2.rc (p2.snap.getD k V3.zero)) } } k p2.g.bd _ ts (t :: more) hw hfl hrk rfl rfl
          rfl).1 (fun j hj => hsel j (by rw [hks]; exact List.mem_cons_of_mem _ hj)) hsel
      refine ⟨b, ?_⟩
      rw [hb]
      have e : siteBonds p.g.c p.snap p.g.sel (G.cart w.lat t)
          = specBond p.g.c k (V3.add (G.cart w.lat t) (p.snap.getD k V3.zero))
            ++ siteBonds p.g.c p.snap ({ p.g with cur := p.g.first + 1 } : Gen).rest (G.cart w.lat t) := by
        rw [hks]; unfold siteBonds; rw [List.flatMap_cons]
      simp only [Option.map_some, List.flatMap_cons]
      rw [hbd, spec_head, e]
      simp only [siteBonds, List.flatMap_nil, List.append_nil]
      rfl
    | cons j js ihi =>
      intro p i old q ts rest hw hfl hr hsp htl hbd
      exact pcollect_cons w (t :: more) j js ihi p i old q ts rest hw hfl hr hsp htl hbd

/-- The points of the sphere that the loop uses. -/
noncomputable def PerGen.points (w : World G) (p : PerGen G) : List G.Pt :=
  match p.sphere with
  | some (ts, _) => ts
  | none => G.visits w.lat (p.g.c.rmin - G.diag w.lat) (p.g.c.rmax + G.diag w.lat)

theorem withSphere_eq (w : World G) (p : PerGen G) :
    ∃ rest, p.withSphere w = { p with sphere := some (p.points w, rest) } := by
  unfold PerGen.withSphere PerGen.points
  cases hs : p.sphere with
  | none => exact ⟨_, rfl⟩
  | some s => exact ⟨s.2, by cases p; simp_all⟩

/-- Their Cartesian positions with the lattice of now; the zero vector when there is none. -/
noncomputable def cartPts (w : World G) (ts : List G.Pt) : List V3 :=
  if ts = [] then [V3.zero] else ts.map (G.cart w.lat)

/-- The whole loop. -/
theorem ploop_exact (w : World G) (p : PerGen G) (hw : p.g.last ≤ p.g.buf.length) :
    ((∀ j ∈ p.g.sel, j < p.snap.length) → ∃ b k rest rc, p.loop w
      = some ((cartPts w (p.points w)).flatMap (siteBonds p.g.c p.snap p.g.sel),
          { p with
            sphere := some (p.points w, rest)
            rc := rc
            g := { p.g with
                   cur := k
                   bd := b } }) ∧ p.g.last ≤ k) ∧
    ((∃ j ∈ p.g.sel, p.snap.length ≤ j) → p.loop w = none) := by
  let p0 : PerGen G := p.withSphere w
  obtain ⟨rest0, hp0⟩ : ∃ rest, p0 = { p with sphere := some (p.points w, rest) } := withSphere_eq w p
  let p1 : PerGen G := { p0 with g := { p0.g with cur := p0.g.first } }
  have hl : p.loop w = if p1.g.last ≤ p1.g.cur then some ([], p1) else
      (p1.rewindSym w).bind fun p2 => (p2.advance w).bind (PerGen.collect w) := by
    have : p.rewind w = if p1.g.last ≤ p1.g.cur then some p1 else
        (p1.rewindSym w).bind fun p2 => p2.advance w := by
      unfold PerGen.rewind
      dsimp only
      show (if p1.g.last ≤ p1.g.cur then some p1 else
        match p1.rewindSym w with | none => none | some p2 => p2.advance w) = _
      cases p1.rewindSym w with
      | none => rfl
      | some _ => rfl
    unfold PerGen.loop
    rw [this]
    by_cases hf : p1.g.last ≤ p1.g.cur
    · rw [if_pos hf, if_pos hf]
      dsimp only
      rw [pcollect_fin hf]
    · rw [if_neg hf, if_neg hf]
      cases p1.rewindSym w with
      | none => rfl
      | some q =>
        simp only [Option.bind_some]
        cases q.advance w with
        | none => rfl
        | some _ => rfl
  have hp1 : p1 = { p with
        sphere := some (p.points w, rest0)
        g := { p.g with cur := p.g.first } } := by
    simp only [p1]; rw [hp0]
  rw [hp1] at hl
  dsimp only at hl
  by_cases hf : p.g.last ≤ p.g.first
  · have hs : p.g.sel = [] := rest_nil_of_finished (g := { p.g with cur := p.g.first }) hf
    rw [if_pos hf] at hl
    rw [hs, hl]
    refine ⟨fun _ => ⟨p.g.bd, p.g.first, rest0, p.rc, ?_, hf⟩, fun h => by
      obtain ⟨j, hj, _⟩ := h; cases hj⟩
    have : (cartPts w (p.points w)).flatMap (siteBonds p.g.c p.snap []) = [] := by
      simp [siteBonds]
    rw [this]
  · rw [if_neg hf] at hl
    obtain ⟨i, hi, hr⟩ := rest_cons (g := { p.g with cur := p.g.first }) hw hf
    have hs : p.g.sel = i :: ({ p.g with cur := p.g.first + 1 } : Gen).rest := hr
    let rc0 : V3 := match p.points w with
      | [] => V3.zero
      | t :: _ => G.cart w.lat t
    have hcart : cartPts w (p.points w) = rc0 :: (p.points w).tail.map (G.cart w.lat) := by
      simp only [cartPts, rc0]
      cases p.points w with
      | nil => simp
      | cons t ts => simp
    let p2 : PerGen G := { p with
          sphere := some (p.points w, p.points w)
          rc := rc0
          g := { p.g with cur := p.g.first } }
    have hrs : PerGen.rewindSym w { p with
        sphere := some (p.points w, rest0)
        g := { p.g with cur := p.g.first } } = p2.updater1 := rfl
    rw [hrs] at hl
    by_cases hin : i < p.snap.length
    · rw [updater1_ok (p := p2) hi hin] at hl
      simp only [Option.bind_some] at hl
      obtain ⟨h1, h2⟩ := pcollect_exact w (p.points w).tail _ { p2 with
          g := { p2.g with
                 bd := updateDistance p2.g.c.r0 p2.g.c.rmax p2.g.bd
                   (V3.add p2.rc (p2.snap.getD i V3.zero)) } } i p2.g.bd _ (p.points w) (p.points w) hw
          (by simpa using hf) hr rfl rfl rfl
      rw [hl]
      refine ⟨fun hsel => ?_, fun hex => ?_⟩
      · obtain ⟨b, hb⟩ := h1 (fun j hj => hsel j (by rw [hs]; exact List.mem_cons_of_mem _ hj)) hsel
        refine ⟨b, p.g.last, [], V3.zero, ?_, Nat.le_refl _⟩
        rw [hb, hcart, List.flatMap_cons]
        have e : siteBonds p.g.c p.snap p.g.sel rc0
            = specBond p.g.c i (V3.add rc0 (p.snap.getD i V3.zero))
              ++ siteBonds p.g.c p.snap ({ p.g with cur := p.g.first + 1 } : Gen).rest rc0 := by
          rw [hs]; unfold siteBonds; rw [List.flatMap_cons]
        rw [e, List.flatMap_map]
        rfl
      · obtain ⟨k, hk, hkn⟩ := hex
        rw [hs] at hk
        rcases List.mem_cons.1 hk with rfl | hk
        · omega
        · exact h2 ⟨k, hk, hkn⟩
    · rw [updater1_none (p := p2) hi (by simpa [p2] using hin)] at hl
      refine ⟨fun hsel => absurd (hsel i (by rw [hs]; simp)) hin, fun _ => hl⟩

end Verif.GenObj
