import Verif.Model.GenCrystal
import Verif.Lemmas.GenObject
import Mathlib.Tactic.ByContra
/-! Lemmas for the crystal bond generator as an object. -/
namespace Verif.GenObj
open Verif.R3 Verif.BondGen Classical

variable {G : Geo}

theorem cadvance_fin {w : CWorld G} {p : CryGen G} (h : p.g.last ≤ p.g.cur) : p.advance w = some p := by
  unfold CryGen.advance; rw [dif_pos h]

theorem ccollect_fin {w : CWorld G} {p : CryGen G} (h : p.g.last ≤ p.g.cur) :
    p.collect w = some ([], p) := by
  unfold CryGen.collect; rw [dif_pos h]

theorem cadvance_bad {w : CWorld G} {p : CryGen G} (h : ¬ p.g.last ≤ p.g.cur)
    (hb : badBond p.g.c p.g.bd.dist) : p.advance w = p.next w := by
  rw [CryGen.advance.eq_1, dif_neg h, if_pos hb]
  unfold CryGen.next
  split <;> rename_i e <;> rw [e]

theorem cadvance_good {w : CWorld G} {p : CryGen G} (hb : ¬ badBond p.g.c p.g.bd.dist) :
    p.advance w = some p := by
  rw [CryGen.advance.eq_1]
  simp [hb]

theorem ccollect_step {w : CWorld G} {p : CryGen G} {i : Nat} (h : ¬ p.g.last ≤ p.g.cur)
    (hi : p.g.site1 = some i) :
    p.collect w = ((p.next w).bind (CryGen.collect w)).map
      fun r => ((⟨⟨i, p.g.bd.r1, p.g.bd.r01, p.g.bd.dist⟩, p.ucart1 w⟩ : CBond) :: r.1, r.2) := by
  rw [CryGen.collect.eq_1, dif_neg h, hi]
  dsimp only
  split
  · rename_i e; rw [e]; rfl
  · rename_i g1 e
    rw [e]
    simp only [Option.bind_some]
    cases CryGen.collect w g1 with
    | none => rfl
    | some r => rfl

theorem cunroll {w : CWorld G} {p : CryGen G} {i : Nat} (h : ¬ p.g.last ≤ p.g.cur)
    (hi : p.g.site1 = some i) :
    (p.advance w).bind (CryGen.collect w) = ((p.next w).bind (CryGen.collect w)).map
      fun r => ((if ¬ badBond p.g.c p.g.bd.dist then
        [(⟨⟨i, p.g.bd.r1, p.g.bd.r01, p.g.bd.dist⟩, p.ucart1 w⟩ : CBond)] else []) ++ r.1, r.2) := by
  by_cases hb : badBond p.g.c p.g.bd.dist
  · rw [cadvance_bad h hb, if_neg (not_not.2 hb)]
    cases (p.next w).bind (CryGen.collect w) with
    | none => rfl
    | some r => rfl
  · rw [cadvance_good hb, if_pos hb]
    exact ccollect_step h hi

/-- The bond to equivalent atom `k` of site `i` at `r1`, if it is in range. -/
noncomputable def specC (c : Cfg) (i k : Nat) (r1 : V3) : List CBond :=
  (specBond c i r1).map fun b => ⟨b, some (some (i, k))⟩

theorem specC_head (c : Cfg) (old : Cur) (i k : Nat) (r1 : V3) :
    (if ¬ badBond c (updateDistance c.r0 c.rmax old r1).dist then
      [(⟨⟨i, (updateDistance c.r0 c.rmax old r1).r1, (updateDistance c.r0 c.rmax old r1).r01,
        (updateDistance c.r0 c.rmax old r1).dist⟩, some (some (i, k))⟩ : CBond)] else []) = specC c i k r1 := by
  unfold specC
  rw [← spec_head c old i r1]
  split <;> rfl

/-- The bonds to the equivalent atoms of site `i`, from number `k` on; `P` are the lattice points. -/
noncomputable def symFrom (c : Cfg) (P : List V3) (i : Nat) (sa : List V3) (k : Nat) : List CBond :=
  (sa.zipIdx.drop k).flatMap fun e => P.flatMap fun t => specC c i e.2 (V3.add t e.1)

theorem symFrom_cons (c : Cfg) (P : List V3) (i : Nat) (sa : List V3) (k : Nat) (q : V3) (h : sa[k]? = some q) :
    symFrom c P i sa k = (P.flatMap fun t => specC c i k (V3.add t q)) ++ symFrom c P i sa (k + 1) := by
  unfold symFrom
  obtain ⟨hk, hq⟩ := List.getElem?_eq_some_iff.1 h
  have hk2 : k < sa.zipIdx.length := by simpa using hk
  rw [List.drop_eq_getElem_cons hk2, List.flatMap_cons]
  simp [hq]

theorem symFrom_end (c : Cfg) (P : List V3) (i : Nat) (sa : List V3) (k : Nat) (h : sa.length ≤ k) :
    symFrom c P i sa k = [] := by
  unfold symFrom
  rw [List.drop_eq_nil_of_le (by simpa using h)]; rfl

/-- The lattice points of the sphere. -/
noncomputable def ccartPts (w : CWorld G) (ts : List G.Pt) : List V3 :=
  if ts = [] then [V3.zero] else ts.map (G.cart w.lat)

/-- The first of them. -/
noncomputable def rc0 (w : CWorld G) (ts : List G.Pt) : V3 :=
  match ts with
  | [] => V3.zero
  | t :: _ => G.cart w.lat t

theorem ccartPts_eq (w : CWorld G) (ts : List G.Pt) :
    ccartPts w ts = rc0 w ts :: ts.tail.map (G.cart w.lat) := by
  unfold ccartPts rc0
  cases ts with
  | nil => simp
  | cons t ts => simp

/-- A site that has equivalent positions. -/
def HasSym (w : CWorld G) (j : Nat) : Prop := ∃ sa q, w.syms[j]? = some sa ∧ sa[0]? = some q

theorem cupdater1_ok {w : CWorld G} {p : CryGen G} {i : Nat} {sa : List V3} {q : V3} (hi : p.g.site1 = some i)
    (hsa : w.syms[i]? = some sa) (hq : sa[p.symidx]? = some q) :
    p.updater1 w = some { p with
      ptr := some (w.ver, i, p.symidx)
      g := { p.g with
             bd := updateDistance p.g.c.r0 p.g.c.rmax p.g.bd (V3.add p.rc q) } } := by
  unfold CryGen.updater1 CryGen.here
  rw [hi]
  simp only
  rw [hsa]
  simp only [Option.map_some]
  rw [hq]

theorem cupdater1_none {w : CWorld G} {p : CryGen G} {i : Nat} (hi : p.g.site1 = some i) (h0 : p.symidx = 0)
    (hb : ¬ HasSym w i) : p.updater1 w = none := by
  unfold CryGen.updater1 CryGen.here
  rw [hi]
  simp only
  cases hs : w.syms[i]? with
  | none => rfl
  | some sa =>
    simp only [Option.map_some]
    cases hq : sa[p.symidx]? with
    | none => rfl
    | some q => rw [h0] at hq; exact absurd ⟨sa, q, hs, hq⟩ hb

/-- The order of raw bonds is well founded. -/
theorem mu_wf (w : CWorld G) : WellFounded fun p p' : CryGen G => mlt (p.mu w) (p'.mu w) := by
  refine Subrelation.wf (r := InvImage (Prod.Lex (· < ·) (Prod.Lex (· < ·) (· < ·))) (CryGen.mu w)) ?_
    (InvImage.wf _ ?_)
  · intro a b h; exact mlt_lex h
  · exact (Prod.lex (Nat.lt_wfRel) (Prod.lex Nat.lt_wfRel Nat.lt_wfRel)).wf

/-- What the loop does from a state at equivalent atom `p.symidx` of site `i`, at position `x`. -/
def CyExact (w : CWorld G) (p : CryGen G) (i : Nat) (is : List Nat) (sa : List V3) (q x : V3) (ts more : List G.Pt) :
    Prop :=
  ((∀ j ∈ is, HasSym w j) → ∃ b t k, (p.advance w).bind (CryGen.collect w)
      = some (specC p.g.c i p.symidx x
          ++ (more.flatMap fun t => specC p.g.c i p.symidx (V3.add (G.cart w.lat t) q))
          ++ symFrom p.g.c (ccartPts w ts) i sa (p.symidx + 1)
          ++ is.flatMap (fun j => symFrom p.g.c (ccartPts w ts) j (w.syms.getD j []) 0),
        { p with
          sphere := some (ts, [])
          rc := V3.zero
          symidx := k
          ptr := t
          g := { p.g with
                 cur := p.g.last
                 bd := b } })) ∧
    ((∃ j ∈ is, ¬ HasSym w j) → (p.advance w).bind (CryGen.collect w) = none)

theorem cycollect_exact (w : CWorld G) (p : CryGen G) : ∀ (i : Nat) (is : List Nat) (sa : List V3) (q x : V3)
    (old : Cur) (ts rest more : List G.Pt),
    p.g.last ≤ p.g.buf.length → p.g.rest = i :: is → w.syms[i]? = some sa → sa[p.symidx]? = some q →
    p.sphere = some (ts, rest) → rest.tail = more → p.ptr = some (w.ver, i, p.symidx) →
    p.g.bd = updateDistance p.g.c.r0 p.g.c.rmax old x → CyExact w p i is sa q x ts more := by
  refine WellFounded.induction (C := fun p => ∀ (i : Nat) (is : List Nat) (sa : List V3) (q x : V3)
    (old : Cur) (ts rest more : List G.Pt),
    p.g.last ≤ p.g.buf.length → p.g.rest = i :: is → w.syms[i]? = some sa → sa[p.symidx]? = some q →
    p.sphere = some (ts, rest) → rest.tail = more → p.ptr = some (w.ver, i, p.symidx) →
    p.g.bd = updateDistance p.g.c.r0 p.g.c.rmax old x → CyExact w p i is sa q x ts more) (mu_wf w) p ?_
  intro p ih i is sa q x old ts rest more hw hr hsa hq hsp htl hptr hbd
  have hnf : ¬ p.g.last ≤ p.g.cur := fun h => by rw [rest_nil_of_finished h] at hr; cases hr
  obtain ⟨i', hi, hr'⟩ := rest_cons hw hnf
  rw [hr] at hr'
  obtain ⟨rfl, h2⟩ := List.cons.inj hr'
  have hu : p.ucart1 w = some (some (i, p.symidx)) := by
    unfold CryGen.ucart1; rw [hptr]; simp
  have hhere : p.here w = some (i, sa) := by
    unfold CryGen.here; rw [hi]; simp only; rw [hsa]; rfl
  unfold CyExact
  rw [cunroll hnf hi, hu]
  have hspec : (if ¬ badBond p.g.c p.g.bd.dist then
        [(⟨⟨i, p.g.bd.r1, p.g.bd.r01, p.g.bd.dist⟩, some (some (i, p.symidx))⟩ : CBond)] else [])
      = specC p.g.c i p.symidx x := by
    rw [hbd]; exact specC_head _ _ _ _ _
  rw [hspec]
  have hnb : ∀ p1, p.getNext w = some p1 → p.next w = p1.advance w := by
    intro p1 h1; unfold CryGen.next; rw [h1]
  cases more with
  | cons t more =>
    -- the next lattice point
    have hg : p.getNext w = CryGen.updater1 w { p with
        sphere := some (ts, t :: more)
        rc := G.cart w.lat t } := by
      unfold CryGen.getNext
      rw [hsp]
      dsimp only
      rw [htl]
    rw [cupdater1_ok (p := { p with
        sphere := some (ts, t :: more)
        rc := G.cart w.lat t }) hi hsa hq] at hg
    rw [hnb _ hg]
    obtain ⟨ih1, ih2⟩ := ih _ (CryGen.getNext_dec hg hnf) i is sa q _ p.g.bd ts (t :: more) more hw hr hsa hq
      rfl rfl rfl rfl
    refine ⟨fun hall => ?_, fun hex => by rw [ih2 hex]; rfl⟩
    obtain ⟨b, t', k, e⟩ := ih1 hall
    refine ⟨b, t', k, ?_⟩
    rw [e]
    simp only [Option.map_some, List.flatMap_cons, List.append_assoc]
  | nil =>
    by_cases hlen : sa.length ≤ p.symidx + 1
    · -- the next site
      rw [symFrom_end _ _ _ _ _ hlen]
      have hg : p.getNext w = if p.g.last ≤ p.g.cur + 1 then some { p with
          sphere := some (ts, [])
          rc := V3.zero
          symidx := p.symidx + 1
          g := { p.g with cur := p.g.cur + 1 } } else CryGen.rewindSym w { p with
          sphere := some (ts, [])
          rc := V3.zero
          symidx := p.symidx + 1
          g := { p.g with cur := p.g.cur + 1 } } := by
        unfold CryGen.getNext
        rw [hsp]
        dsimp only
        rw [htl]
        dsimp only
        rw [hhere]
        dsimp only
        rw [if_pos hlen]
      cases is with
      | nil =>
        have hend : p.g.last ≤ p.g.cur + 1 := by
          by_contra hc
          obtain ⟨k, _, hk⟩ := rest_cons (g := { p.g with cur := p.g.cur + 1 }) hw hc
          rw [hk] at h2; cases h2
        have hcur : p.g.cur + 1 = p.g.last := by omega
        rw [if_pos hend] at hg
        refine ⟨fun _ => ⟨p.g.bd, p.ptr, p.symidx + 1, ?_⟩, fun h => by obtain ⟨j, hj, _⟩ := h; cases hj⟩
        rw [hnb _ hg, cadvance_fin hend, Option.bind_some, ccollect_fin hend]
        simp only [Option.map_some, List.append_nil, List.flatMap_nil]
        rw [hcur]
      | cons j js =>
        have hnf1 : ¬ p.g.last ≤ p.g.cur + 1 := fun h => by
          rw [rest_nil_of_finished (g := { p.g with cur := p.g.cur + 1 }) h] at h2; cases h2
        obtain ⟨j', hj, hr2⟩ := rest_cons (g := { p.g with cur := p.g.cur + 1 }) hw hnf1
        rw [← h2] at hr2
        obtain ⟨rfl, h3⟩ := List.cons.inj hr2
        rw [if_neg hnf1] at hg
        have hg2 : p.getNext w = CryGen.updater1 w { p with
            sphere := some (ts, ts)
            rc := rc0 w ts
            symidx := 0
            g := { p.g with cur := p.g.cur + 1 } } := by
          rw [hg]
          unfold CryGen.rewindSym CryGen.rewindSphere
          rfl
        by_cases hjs : HasSym w j
        · obtain ⟨sa', q', hsa', hq'⟩ := hjs
          rw [cupdater1_ok (p := { p with
            sphere := some (ts, ts)
            rc := rc0 w ts
            symidx := 0
            g := { p.g with cur := p.g.cur + 1 } }) hj hsa' hq'] at hg2
          rw [hnb _ hg2]
          obtain ⟨ih1, ih2⟩ := ih _ (CryGen.getNext_dec hg2 hnf) j js sa' q' _ p.g.bd ts ts ts.tail hw h2.symm
            hsa' hq' rfl rfl rfl rfl
          refine ⟨fun hall => ?_, fun hex => ?_⟩
          · obtain ⟨b, t', k, e⟩ := ih1 fun k hk => hall k (List.mem_cons_of_mem _ hk)
            refine ⟨b, t', k, ?_⟩
            rw [e]
            have hgd : w.syms.getD j [] = sa' := by rw [List.getD, hsa']; rfl
            simp only [Option.map_some, List.flatMap_cons, List.flatMap_nil, List.append_nil, hgd]
            rw [symFrom_cons _ _ _ _ _ _ hq', ccartPts_eq, List.flatMap_cons, List.flatMap_map]
          · obtain ⟨k, hk, hkb⟩ := hex
            rcases List.mem_cons.1 hk with rfl | hk
            · exact absurd ⟨sa', q', hsa', hq'⟩ hkb
            · rw [ih2 ⟨k, hk, hkb⟩]; rfl
        · refine ⟨fun hall => absurd (hall j (by simp)) hjs, fun _ => ?_⟩
          rw [cupdater1_none (p := { p with
            sphere := some (ts, ts)
            rc := rc0 w ts
            symidx := 0
            g := { p.g with cur := p.g.cur + 1 } }) hj rfl hjs] at hg2
          unfold CryGen.next
          rw [hg2]; rfl
    · -- the next equivalent position
      have hlt : p.symidx + 1 < sa.length := by omega
      have hq' : sa[p.symidx + 1]? = some sa[p.symidx + 1] := List.getElem?_eq_getElem hlt
      have hg : p.getNext w = CryGen.updater1 w { p with
          sphere := some (ts, ts)
          rc := rc0 w ts
          symidx := p.symidx + 1 } := by
        unfold CryGen.getNext
        rw [hsp]
        dsimp only
        rw [htl]
        dsimp only
        rw [hhere]
        dsimp only
        rw [if_neg hlen]
        unfold CryGen.rewindSphere
        rfl
      rw [cupdater1_ok (p := { p with
          sphere := some (ts, ts)
          rc := rc0 w ts
          symidx := p.symidx + 1 }) hi hsa hq'] at hg
      rw [hnb _ hg]
      obtain ⟨ih1, ih2⟩ := ih _ (CryGen.getNext_dec hg hnf) i is sa _ _ p.g.bd ts ts ts.tail hw hr hsa hq'
        rfl rfl rfl rfl
      refine ⟨fun hall => ?_, fun hex => by rw [ih2 hex]; rfl⟩
      obtain ⟨b, t', k, e⟩ := ih1 hall
      refine ⟨b, t', k, ?_⟩
      rw [e]
      rw [symFrom_cons _ _ _ _ _ _ hq']
      conv_rhs => rw [ccartPts_eq, List.flatMap_cons, List.flatMap_map]
      simp only [Option.map_some, List.flatMap_nil, List.append_nil, List.append_assoc]
      rw [← ccartPts_eq]

/-- The points of the sphere that the loop uses. -/
noncomputable def CryGen.points (w : CWorld G) (p : CryGen G) : List G.Pt :=
  match p.sphere with
  | some (ts, _) => ts
  | none => G.visits w.lat (p.g.c.rmin - G.diag w.lat) (p.g.c.rmax + G.diag w.lat)

theorem cwithSphere_eq (w : CWorld G) (p : CryGen G) :
    ∃ rest, p.withSphere w = { p with sphere := some (p.points w, rest) } := by
  unfold CryGen.withSphere CryGen.points
  cases hs : p.sphere with
  | none => exact ⟨_, rfl⟩
  | some s => exact ⟨s.2, by cases p; simp_all⟩

/-- The whole loop. -/
theorem cloop_exact (w : CWorld G) (p : CryGen G) (hw : p.g.last ≤ p.g.buf.length) :
    ((∀ j ∈ p.g.sel, HasSym w j) → ∃ b k rest rc n t, p.loop w
      = some (p.g.sel.flatMap (fun j => symFrom p.g.c (ccartPts w (p.points w)) j (w.syms.getD j []) 0),
          { p with
            sphere := some (p.points w, rest)
            rc := rc
            symidx := n
            ptr := t
            g := { p.g with
                   cur := k
                   bd := b } }) ∧ p.g.last ≤ k) ∧
    ((∃ j ∈ p.g.sel, ¬ HasSym w j) → p.loop w = none) := by
  obtain ⟨rest0, hp0⟩ := cwithSphere_eq w p
  let p1 : CryGen G := { p with
        sphere := some (p.points w, rest0)
        g := { p.g with cur := p.g.first } }
  have hl : p.loop w = if p1.g.last ≤ p1.g.cur then some ([], p1) else
      (p1.rewindSym w).bind fun p2 => (p2.advance w).bind (CryGen.collect w) := by
    have : p.rewind w = if p1.g.last ≤ p1.g.cur then some p1 else
        (p1.rewindSym w).bind fun p2 => p2.advance w := by
      unfold CryGen.rewind
      dsimp only
      rw [hp0]
      show (if p1.g.last ≤ p1.g.cur then some p1 else
        match p1.rewindSym w with | none => none | some p2 => p2.advance w) = _
      cases p1.rewindSym w with
      | none => rfl
      | some _ => rfl
    unfold CryGen.loop
    rw [this]
    by_cases hf : p1.g.last ≤ p1.g.cur
    · rw [if_pos hf, if_pos hf]
      dsimp only
      rw [ccollect_fin hf]
    · rw [if_neg hf, if_neg hf]
      cases p1.rewindSym w with
      | none => rfl
      | some q =>
        simp only [Option.bind_some]
        cases q.advance w with
        | none => rfl
        | some _ => rfl
  by_cases hf : p.g.last ≤ p.g.first
  · have hs : p.g.sel = [] := rest_nil_of_finished (g := { p.g with cur := p.g.first }) hf
    have hf1 : p1.g.last ≤ p1.g.cur := hf
    rw [if_pos hf1] at hl
    rw [hs, hl]
    exact ⟨fun _ => ⟨p.g.bd, p.g.first, rest0, p.rc, p.symidx, p.ptr, rfl, hf⟩, fun h => by
      obtain ⟨j, hj, _⟩ := h; cases hj⟩
  · have hf1 : ¬ p1.g.last ≤ p1.g.cur := hf
    rw [if_neg hf1] at hl
    obtain ⟨i, hi, hr⟩ := rest_cons (g := { p.g with cur := p.g.first }) hw hf
    have hs : p.g.sel = i :: ({ p.g with cur := p.g.first + 1 } : Gen).rest := hr
    let p2 : CryGen G := { p with
          sphere := some (p.points w, p.points w)
          rc := rc0 w (p.points w)
          symidx := 0
          g := { p.g with cur := p.g.first } }
    have hrs : p1.rewindSym w = p2.updater1 w := rfl
    rw [hrs] at hl
    by_cases hin : HasSym w i
    · obtain ⟨sa, q, hsa, hq⟩ := hin
      rw [cupdater1_ok (p := p2) hi hsa hq] at hl
      simp only [Option.bind_some] at hl
      obtain ⟨h1, h2⟩ := cycollect_exact w { p2 with
          ptr := some (w.ver, i, p2.symidx)
          g := { p2.g with
                 bd := updateDistance p2.g.c.r0 p2.g.c.rmax p2.g.bd (V3.add p2.rc q) } } i _ sa q _ p2.g.bd
          (p.points w) (p.points w) (p.points w).tail hw hr hsa hq rfl rfl rfl rfl
      rw [hl]
      refine ⟨fun hsel => ?_, fun hex => ?_⟩
      · obtain ⟨b, t, k, e⟩ := h1 fun j hj => hsel j (by rw [hs]; exact List.mem_cons_of_mem _ hj)
        refine ⟨b, p.g.last, [], V3.zero, k, t, ?_, Nat.le_refl _⟩
        rw [e, hs, List.flatMap_cons]
        have hgd : w.syms.getD i [] = sa := by rw [List.getD, hsa]; rfl
        rw [hgd, symFrom_cons _ _ _ _ _ _ hq]
        conv_rhs => rw [ccartPts_eq, List.flatMap_cons, List.flatMap_map]
        rw [← ccartPts_eq]
      · obtain ⟨k, hk, hkn⟩ := hex
        rw [hs] at hk
        rcases List.mem_cons.1 hk with rfl | hk
        · exact absurd ⟨sa, q, hsa, hq⟩ hkn
        · exact h2 ⟨k, hk, hkn⟩
    · rw [cupdater1_none (p := p2) hi rfl hin] at hl
      refine ⟨fun hsel => absurd (hsel i (by rw [hs]; simp)) hin, fun _ => hl⟩

end Verif.GenObj
