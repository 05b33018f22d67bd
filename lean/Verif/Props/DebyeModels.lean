import Verif.Model.DebyeModels
import Verif.Props.DebyeOutput
import Verif.Props.PDFModels
/-! C91: F(Q) and G(r) of a DebyePDFCalculator with the peak width models of the library, after any history of calls of the API. -/
set_option linter.unusedSectionVars false
namespace Verif.DebyeHist
open Verif.Eval Verif.Diff Verif.KindDiff Verif.History Verif.Debye Verif.Setters Verif.R3 Verif.Lattice Verif.Geo
open Verif.PDFHist (POp PWM sitesOf along fwhm pairWidth peakSite bondMsd Displaced)
open scoped BigOperators

/-! ### Specification -/

/-- What F(Q) depends on: the widths of peaks are those of C90. -/
noncomputable def DLCfg.dcfg (c : DLCfg) : DCfg := ⟨c.d, c.lookup, fun _ => pairWidth c.pwm, c.mask⟩

variable {C S : Type}

/-- `k` is the DebyePDFCalculator with the configurations `conf` used with the structures `stru`; it asks the width model for the width of each bond, with the
displacements that the bond generator reports, and for the largest width in the structure. -/
structure IsLibraryDebye (s : Sorter) (conf : C → DLCfg) (stru : S → RStru) (k : Cls C S) : Prop where
  inj : ∀ x c, conf (k.reset x c).1 = conf c → (k.reset x c).1 = c
  count : ∀ x, k.count x = (stru x).atoms.length
  diff : ∀ x y, k.diff x y = KindDiff.diff s false (stru x) (stru y)
  use : ∀ c x i j, k.use c x i j = (conf c).mask i j (stru x).atoms[i]? (stru x).atoms[j]?
  par : ∀ c, k.par c = (conf c).d.q
  cache : ∀ c x, k.cache c x = cacheOf (conf c).d.q (sfPDF (conf c).lookup (sitesOf (stru x))) (sitesOf (stru x))
  avg : ∀ c x, k.avg c x = sfAverage (conf c).d.q (k.cache c x) (sitesOf (stru x))
  totocc : ∀ x, k.totocc x = totalOccupancy (sitesOf (stru x))
  custom : k.custom = k.reset
  reset : ∀ x c, ∃ d', dstep ((conf c).tails (stru x)) (conf c).d .reset = .ok d' ∧ conf (k.reset x c).1 = { conf c with d := d' } ∧
    (k.reset x c).2 = decide (d'.clicks ≠ (conf c).d.clicks)
  gen : ∀ c x, (conf c).d.cached = true → ∃ gen, (geom (stru x)).IsGen (conf c).d.rcalclo (conf c).d.rcalchi gen ∧
    ∀ i sel, i < (geom (stru x)).cnt → (∀ j ∈ sel, j < (geom (stru x)).cnt) →
      k.gen c x i sel = readGen (geom (stru x)).mult ((conf c).bondWidth (stru x)) gen i sel
  outside : ∀ c x i sel, (conf c).d.cached = true → ¬ (i < (geom (stru x)).cnt ∧ ∀ j ∈ sel, j < (geom (stru x)).cnt) →
    (k.gen c x i sel).Perm (sel.flatMap fun j => ((vecs (geom (stru x)) (conf c).d.rcalclo (conf c).d.rcalchi i j).map
      fun v => (⟨V3.norm v, (conf c).dcfg.W (stru x) i j v, (geom (stru x)).mult i⟩ : Bond)).map fun b => (j, b))

/-- The configurations and structures in use: as for C87, with the width models and displacements of C90; the lower limit of r within the extension. -/
structure UsualDebye (conf : C → DLCfg) (stru : S → RStru) (k : Cls C S) : Prop where
  cls : ∀ x y, (k.diff x y).allowsFast = true → SameClass (stru x).kind (stru y).kind
  geo : ∀ x, (geom (stru x)).Ok
  occ : ∀ x, UniformOccupancy (sitesOf (stru x))
  good : ∀ c, (conf c).d.Good
  pwm : ∀ c, (conf c).pwm.Usual
  disp : ∀ x, Displaced (stru x)
  even : ∀ c x, (conf c).d.q.prec < 0 ∨ ∀ i j, i < (geom (stru x)).cnt → j < (geom (stru x)).cnt → (geom (stru x)).mult i = (geom (stru x)).mult j
  mask : ∀ c i j a b, (conf c).mask i j a b = (conf c).mask j i b a
  types : ∀ c, k.hasPairMask c = false → ∀ i j i' j' a b, (conf c).mask i j a b = (conf c).mask i' j' a b
  optimum : ∀ c, (conf c).d.optimum = true
  low : ∀ c, (conf c).d.rmin ≤ (conf c).d.maxext ∧ (conf c).d.rmin ≤ (conf c).d.ripples
  wide : ∀ c, 4 * Real.pi < (conf c).d.q.qmax * (conf c).d.rmax

/-- The configuration calls of a history are calls of the API. -/
def Called (conf : C → DLCfg) (k : Cls C S) (s : DC C S) (ops : List (POp C S)) : Prop :=
  ∀ pre f clicks r post, ops = pre ++ POp.configure f clicks r :: post →
    DApi (conf (dcRun k s pre).h.cfg) (conf (f (dcRun k s pre).h.cfg)) clicks

/-- Whether a `setStructure` or `setRstep` call since the last full evaluation may have left the stored value out of step (no other call may). -/
noncomputable def strayed (conf : C → DLCfg) (k : Cls C S) (s : DC C S) (ops : List (POp C S)) : Bool :=
  taintRun k (fun c c' => (conf c').d.rstep = (conf c).d.rstep) s false ops

/-! ### The calculator -/

/-- For lemmas of C90 on widths. -/
noncomputable def DLCfg.lib (c : DLCfg) : PDFHist.LCfg := ⟨⟨0, 0, 0, 0, 0, 0, 0⟩, c.pwm, .gauss .new, fun _ => 0, c.mask⟩

theorem tails_nonneg (c : DLCfg) (x : RStru) (a b : ℝ) : 0 ≤ c.tails x a b :=
  (Peak.hi_mono _ ⟨[peakPrecision], rfl⟩ (le_refl _)).2

theorem library_debye {s : Sorter} {conf : C → DLCfg} {stru : S → RStru} {k : Cls C S} (hk : IsLibraryDebye s conf stru k)
    (hu : UsualDebye conf stru k) : IsDebyeCalculator s (fun c => (conf c).dcfg) stru (fun c x => (conf c).tails (stru x)) k where
  inj x c h := by
    obtain ⟨d', -, h2, -⟩ := hk.reset x c
    apply hk.inj
    rw [h2] at h ⊢
    have e : d' = (conf c).d := congrArg DCfg.d h
    rw [e]
  count := hk.count
  diff := hk.diff
  use := hk.use
  par := hk.par
  cache := hk.cache
  avg := hk.avg
  totocc := hk.totocc
  custom := hk.custom
  reset x c := by
    obtain ⟨d', h1, h2, h3⟩ := hk.reset x c
    refine ⟨d', h1, ?_, h3⟩
    show (conf (k.reset x c).1).dcfg = _
    rw [h2]
    rfl
  tails_fixed c x y := by
    obtain ⟨d', h1, h2, h3⟩ := hk.reset y c
    show (conf (k.reset y c).1).tails (stru x) = _
    rw [h2]
    rfl
  gen c x hc := by
    obtain ⟨gen, g1, g2⟩ := hk.gen c x hc
    exact ⟨gen, (conf c).bondWidth (stru x), g1, PDFHist.widths (conf c).lib (stru x) (hu.geo x) (hu.disp x), g2⟩
  outside := hk.outside

theorem library_debye_regular {conf : C → DLCfg} {stru : S → RStru} {k : Cls C S}
    (hu : UsualDebye conf stru k) : Regular (fun c => (conf c).dcfg) stru (fun c x => (conf c).tails (stru x)) k where
  cls := hu.cls
  geo := hu.geo
  occ := hu.occ
  good := hu.good
  tls c x a b := tails_nonneg _ _ _ _
  even := hu.even
  recip c x lo hi := PDFHist.widths_reciprocal (conf c).lib (stru x) (hu.geo x) (hu.disp x) lo hi
  mask := hu.mask
  types := hu.types
  optimum := hu.optimum
  low c x := by
    obtain ⟨h1, h2⟩ := hu.low c
    refine le_min h1 ?_
    have := tails_nonneg (conf c) (stru x) (conf c).d.rmin (conf c).d.rmax
    show (conf c).d.rmin ≤ (conf c).d.ripples + (conf c).tails (stru x) (conf c).d.rmin (conf c).d.rmax
    linarith
  wide := hu.wide

/-- The calculated range covers every peak down to the default precision. -/
theorem debye_tails_bound (c : DLCfg) (hw : c.pwm.Usual) (x : RStru) (hd : Displaced x) (i j : ℕ) (hi : i < x.atoms.length)
    (hj : j < x.atoms.length) (v : V3) (hv : 1 / 2 ^ 26 < V3.norm v) (rmin rmax : ℝ) (hq : c.pwm.Plain ∨ V3.norm v ≤ rmax) :
    let w := c.dcfg.W x i j v
    w * Real.sqrt (-Real.log peakPrecision / (4 * Real.log 2)) ≤ c.tails x rmin rmax := by
  intro w
  have hv0 : v ≠ V3.zero := by
    rintro rfl
    have : V3.norm V3.zero = 0 := by simp [V3.norm, V3.zero, V3.dot]
    rw [this] at hv
    exact absurd hv (by norm_num)
  have hle : w ≤ c.pwm.maxWidth (x.atoms.map peakSite) rmin rmax := by
    show pairWidth c.pwm x.atoms[i]? x.atoms[j]? v ≤ _
    rw [PDFHist.atom_at hi, PDFHist.atom_at hj]
    refine PDFHist.fwhm_le _ hw _ _ _ _ _ hv hq ?_
    have h1 := PDFHist.along_le hd (List.getElem_mem hi) hv0
    have h2 := PDFHist.along_le hd (List.getElem_mem hj) hv0
    linarith
  have hpr : (Peak.Gauss.new.setPrecision peakPrecision).precision = peakPrecision := by
    rw [(Peak.set_spec _ _).1]
    refine max_eq_left ?_
    unfold Peak.dblEps peakPrecision
    norm_num
  refine le_trans ?_ (Peak.hi_mono (Peak.Gauss.new.setPrecision peakPrecision) ⟨[peakPrecision], rfl⟩ hle).1
  by_cases h0 : 0 < w
  · have hb := (PDFHist.prof_bounds (.gauss (Peak.Gauss.new.setPrecision peakPrecision)) ⟨[peakPrecision], rfl⟩ w h0).2
    change (Peak.Gauss.new.setPrecision peakPrecision).hi w = _ at hb
    rw [hb]
    unfold PDFHist.extent
    have e : (PDFHist.PPF.gauss (Peak.Gauss.new.setPrecision peakPrecision)).precision = peakPrecision := hpr
    rw [e, if_pos (by unfold peakPrecision; norm_num)]
  · have hw0 : w = 0 := le_antisymm (not_lt.1 h0) (PDFHist.pairWidth_nonneg _ hw _ _ _)
    rw [hw0, zero_mul]
    exact (Peak.hi_mono _ ⟨[peakPrecision], rfl⟩ (le_refl _)).2

/-! ### Calls that do not click -/

theorem updateQstep_kept (tails : ℝ → ℝ → ℝ) (d : D) :
    (after (updateQstep tails d)).rmin = d.rmin ∧ (after (updateQstep tails d)).rmax = d.rmax ∧ (after (updateQstep tails d)).rstep = d.rstep ∧
    (after (updateQstep tails d)).maxext = d.maxext ∧ (d.cached = true → (after (updateQstep tails d)).clo = d.clo ∧
      (after (updateQstep tails d)).chi = d.chi ∧ (after (updateQstep tails d)).cached = true) := by
  rw [updateQstep_eq]
  have key : ∀ d1 : D, (d1.rmin = d.rmin ∧ d1.rmax = d.rmax ∧ d1.rstep = d.rstep ∧ d1.maxext = d.maxext ∧ (d.cached = true → d1.clo = d.clo ∧
      d1.chi = d.chi ∧ d1.cached = true)) →
      let r := after (if d1.oqstep ≤ d1.q.qstep ∨ d1.optimum = true then
        if 1 / 2 ^ 26 < d1.oqstep then
          .ok { { d1 with optimum := true }.clickIf (decide (d1.q.qstep ≠ d1.oqstep)) with
            q := { d1.q with qstep := d1.oqstep } }
        else .error { d1 with optimum := true }
      else .ok d1)
      r.rmin = d.rmin ∧ r.rmax = d.rmax ∧ r.rstep = d.rstep ∧ r.maxext = d.maxext ∧ (d.cached = true → r.clo = d.clo ∧ r.chi = d.chi ∧ r.cached = true) := by
    intro d1 h
    dsimp only
    split
    · split
      · rw [clickIf_fields]
        exact h
      · exact h
    · exact h
  refine key (ensureCached tails d) ?_
  unfold ensureCached
  split
  · next h => exact ⟨rfl, rfl, rfl, rfl, fun _ => ⟨rfl, rfl, h⟩⟩
  · next h => exact ⟨rfl, rfl, rfl, rfl, fun h' => absurd h' h⟩

/-- A setter that does not click and keeps the r step leaves the range as it is. -/
theorem setter_limits (tails : ℝ → ℝ → ℝ) (d : D) (op : DOp) (hop : op ≠ .reset) (hc : d.cached = true)
    (h : (after (dstep tails d op)).clicks = d.clicks) (hr : (after (dstep tails d op)).rstep = d.rstep) :
    (after (dstep tails d op)).q = d.q ∧ (after (dstep tails d op)).clo = d.clo ∧ (after (dstep tails d op)).chi = d.chi ∧
      (after (dstep tails d op)).cached = d.cached := by
  have ht := (d_tracked_step tails d op).2 h
  have hq : (after (dstep tails d op)).q = d.q := congrArg Prod.fst ht
  have h1 : (after (dstep tails d op)).rmin = d.rmin := congrArg (fun p => p.2.1) ht
  have h2 : (after (dstep tails d op)).rmax = d.rmax := congrArg (fun p => p.2.2.1) ht
  have h3 : (after (dstep tails d op)).maxext = d.maxext := congrArg (fun p => p.2.2.2) ht
  refine ⟨hq, ?_⟩
  rw [hc]
  cases op with
  | setQmin x =>
    simp only [dstep, baseSetQmin, clickIf_fields]
    split
    · exact ⟨rfl, rfl, hc⟩
    · split
      · exact ⟨rfl, rfl, hc⟩
      · exact ⟨rfl, rfl, hc⟩
  | setQmax x =>
    simp only [dstep, baseSetQmax, clickIf_fields]
    split
    · exact ⟨rfl, rfl, hc⟩
    · exact (updateQstep_kept tails _).2.2.2.2 hc
  | setQstep x =>
    simp only [dstep, baseSetQstep, clickIf_fields]
    split
    · exact ⟨rfl, rfl, hc⟩
    · exact (updateQstep_kept tails _).2.2.2.2 hc
  | setOptimumQstep => exact (updateQstep_kept tails _).2.2.2.2 hc
  | setPrecision x =>
    simp only [dstep, Setters.setPrecision, clickIf_fields]
    exact ⟨rfl, rfl, hc⟩
  | setRmin x =>
    simp only [dstep, pqSetRmin, clickIf_fields] at h1 ⊢
    split at h1
    · next hx => rw [if_pos hx]; exact ⟨rfl, rfl, hc⟩
    · next hx =>
      rw [if_neg hx]
      have e : x = d.rmin := h1
      refine ⟨rfl, rfl, ?_⟩
      show (if d.rmin ≠ x then false else d.cached) = true
      rw [if_neg (by rw [e]; simp)]
      exact hc
  | setRmax x =>
    simp only [dstep, pqSetRmax, clickIf_fields] at h2 ⊢
    split at h2
    · next hx => rw [if_pos hx]; exact ⟨rfl, rfl, hc⟩
    · next hx =>
      rw [if_neg hx]
      rw [(updateQstep_kept tails _).2.1] at h2
      have e : x = d.rmax := h2
      refine (updateQstep_kept tails _).2.2.2.2 ?_
      show (if d.rmax ≠ x then false else d.cached) = true
      rw [if_neg (by rw [e]; simp)]
      exact hc
  | setRstep x =>
    simp only [dstep] at hr ⊢
    split at hr
    · next hx => rw [if_pos hx]; exact ⟨rfl, rfl, hc⟩
    · next hx =>
      rw [if_neg hx]
      have e : x = d.rstep := hr
      refine ⟨rfl, rfl, ?_⟩
      show (if d.rstep ≠ x then false else d.cached) = true
      rw [if_neg (by rw [e]; simp)]
      exact hc
  | setMaxExtension x =>
    simp only [dstep] at h3 ⊢
    split at h3
    · next hx => rw [if_pos hx]; exact ⟨rfl, rfl, hc⟩
    · next hx =>
      rw [if_neg hx]
      rw [(updateQstep_kept tails _).2.2.2.1] at h3
      have e : x = d.maxext := h3
      rw [if_neg (by rw [e]; simp)]
      exact (updateQstep_kept tails _).2.2.2.2 hc
  | reset => exact absurd rfl hop

/-- Calls of the API that do not click, other than a change of the r step, change nothing that F(Q) depends on. -/
theorem api_alike (a b : DLCfg) (hc : a.d.cached = true) (h : DApi a b false) (hr : b.d.rstep = a.d.rstep) : Alike a.dcfg b.dcfg := by
  generalize hb : false = cl at h
  cases h with
  | set x op hop =>
    have hcl : (after (dstep (a.tails x) a.d op)).clicks = a.d.clicks := by
      by_contra hn
      rw [bne_iff_ne.2 hn] at hb
      exact absurd hb (by decide)
    obtain ⟨h1, h2, h3, h4⟩ := setter_limits (a.tails x) a.d op hop hc hcl hr
    exact ⟨h1, hr, h2, h3, h4, rfl, rfl, rfl⟩
  | width w => exact absurd hb (by decide)
  | factors l => exact absurd hb (by decide)
  | masks m => exact absurd hb (by decide)
  | same => exact ⟨rfl, rfl, rfl, rfl, rfl, rfl, rfl, rfl⟩

/-- Along calls of the API nothing but `setStructure` and `setRstep` leaves the value out of step. -/
theorem called_untainted {s : Sorter} (hs : SortSpec s) {conf : C → DLCfg} {stru : S → RStru} {k : Cls C S} (hk : IsLibraryDebye s conf stru k)
    (hu : UsualDebye conf stru k) (jobs : ℕ) (hjobs : 1 ≤ jobs) (c : C) (e : S) (ops : List (POp C S)) (h : Called conf k (dcInit k c e 0 jobs) ops) :
    taintRunF (fun c => (conf c).dcfg) k (dcInit k c e 0 jobs) ops = strayed conf k (dcInit k c e 0 jobs) ops := by
  have hk' := library_debye hk hu
  have hr := library_debye_regular hu
  induction ops using List.reverseRecOn with
  | nil => rfl
  | append_singleton ops op ih =>
    have hpre : Called conf k (dcInit k c e 0 jobs) ops := by
      intro pre f clicks r post he
      exact h pre f clicks r (post ++ [op]) (by rw [he]; simp)
    have ih := ih hpre
    unfold taintRunF strayed at ih ⊢
    rw [taintRun_append, taintRun_append, ih]
    set t := taintRun k (fun c c' => (conf c').d.rstep = (conf c).d.rstep) (dcInit k c e 0 jobs) false ops with hts
    set st := dcRun k (dcInit k c e 0 jobs) ops with hst
    show taintOn k.control (fun c c' => Alike (conf c).dcfg (conf c').dcfg) st.h t op.op =
      taintOn k.control (fun c c' => (conf c').d.rstep = (conf c).d.rstep) st.h t op.op
    cases op with
    | eval x => rfl
    | setStructure x => rfl
    | setType ty => rfl
    | configure f clicks r =>
      cases clicks with
      | true => simp [taintOn, POp.op]
      | false =>
        cases hth : t with
        | true => simp [taintOn, POp.op]
        | false =>
          rw [hth] at ih
          have hapi := h ops f false r [] rfl
          rw [Bool.eq_iff_iff]
          simp only [taintOn, POp.op, Bool.not_false, Bool.true_and, Bool.false_or, decide_eq_true_eq]
          refine and_congr_right fun hpr => not_congr ?_
          have hset := settled_of_untainted k (par_ok hk' hr) _ jobs hjobs (ghost_lawful hs hk' hr) _ (quiet_law hs hk' hr) c e ops ih hpr
          exact ⟨fun a => a.rstep, fun a => api_alike _ _ hset.cached hapi a⟩

theorem called_eval {conf : C → DLCfg} {k : Cls C S} {st : DC C S} {ops : List (POp C S)} (h : Called conf k st ops) (x : S) :
    Called conf k st (ops ++ [.eval x]) := by
  intro pre f clicks r post e
  rcases List.eq_nil_or_concat post with rfl | ⟨l, a, rfl⟩
  · have := congrArg List.getLast? e
    simp at this
  · rw [List.concat_eq_append, ← List.cons_append, ← List.append_assoc] at e
    exact h pre f clicks r l (List.append_inj' e rfl).1

/-! ### Results -/

/-- **C91** (partial). After any history of evaluations and configuration calls of the API, `eval` of a structure leaves the F(Q) of that structure: within the
precision the Debye sum over the atoms of one cell with all atoms, where each pair at distance r adds f f' exp(-σ²Q²/2) sin(Qr)/r, with the σ that the width
model gives for the displacements of the two atoms along the bond.  Missing: `setStructure` and `setRstep` calls before a fast update (`strayed`), the
conditions of `UsualDebye` (without the optimum Q step it is false, C87), and factors that grow with Q (C56). -/
theorem library_F_partial (s : Sorter) (hs : SortSpec s) (conf : C → DLCfg) (stru : S → RStru) (k : Cls C S) (hk : IsLibraryDebye s conf stru k)
    (hu : UsualDebye conf stru k) (c : C) (e : S) (ops : List (POp C S)) (ha : Called conf k (dcInit k c e 0 1) ops) (x : S)
    (ht : strayed conf k (dcInit k c e 0 1) (ops ++ [.eval x]) = false) :
    let r := dcEval k (dcRun k (dcInit k c e 0 1) ops) x
    let cf := conf r.h.cfg
    let a := sitesOf (stru x)
    (∀ t (q q' : ℝ), 0 ≤ q → q ≤ q' → |cf.lookup t q'| ≤ |cf.lookup t q|) → 1 / 2 ^ 26 < atomCount a → 0 ≤ cf.d.q.prec →
    ∃ F, getF k r = some F ∧ F.length = ⌈cf.d.q.qmax / cf.d.q.qstep⌉.toNat ∧ ∀ m < F.length,
      let q := (m : ℝ) * cf.d.q.qstep
      let n := atomCount a * meanFactor cf.lookup a q ^ 2
      ∃ y, F[m]? = some y ∧ (meanFactor cf.lookup a q = 0 → y = 0) ∧ (meanFactor cf.lookup a q ≠ 0 →
        |y - struSum (geom (stru x)) cf.d.rcalclo cf.d.rcalchi (siteFactor cf.lookup a q)
            (fun i j => pairWidth cf.pwm (stru x).atoms[i]? (stru x).atoms[j]?) (fun i j => cf.mask i j (stru x).atoms[i]? (stru x).atoms[j]?) q / n| ≤
          cf.d.q.prec * (bondCount (geom (stru x)) cf.d.rcalclo cf.d.rcalchi (fun i j => cf.mask i j (stru x).atoms[i]? (stru x).atoms[j]?) : ℝ) / n) := by
  replace ht : taintRunF (fun c => (conf c).dcfg) k (dcInit k c e 0 1) (ops ++ [.eval x]) = false :=
    (called_untainted hs hk hu 1 (le_refl _) c e _ (called_eval ha x)).trans ht
  exact F_history_partial s hs _ stru _ k (library_debye hk hu) (library_debye_regular hu) c e ops x ht

/-- **C91** (partial). Value and F(Q) are those of a new calculator with the same configuration, exactly, and its range covers every peak of
the structure (with broadening by Q resolution: of bonds within the range) down to the default precision, unless the maximum extension is in the way. -/
theorem library_fresh_partial (s : Sorter) (hs : SortSpec s) (conf : C → DLCfg) (stru : S → RStru) (k : Cls C S) (hk : IsLibraryDebye s conf stru k)
    (hu : UsualDebye conf stru k) (c : C) (e e' : S) (ops : List (POp C S)) (ha : Called conf k (dcInit k c e 0 1) ops) (x : S)
    (ht : strayed conf k (dcInit k c e 0 1) (ops ++ [.eval x]) = false) :
    let r := dcEval k (dcRun k (dcInit k c e 0 1) ops) x
    let cf := conf r.h.cfg
    let f := dcEval k (dcInit k r.h.cfg e' 0 1) x
    f.h.cfg = r.h.cfg ∧ f.d.value = r.d.value ∧ getF k f = getF k r ∧ cf.d.rcalclo = 0 ∧
      ∀ i j, i < (stru x).atoms.length → j < (stru x).atoms.length → ∀ v, 1 / 2 ^ 26 < V3.norm v → (cf.pwm.Plain ∨ V3.norm v ≤ cf.d.rmax) →
        cf.d.rmax + min cf.d.maxext (cf.d.ripples +
          pairWidth cf.pwm (stru x).atoms[i]? (stru x).atoms[j]? v * Real.sqrt (-Real.log peakPrecision / (4 * Real.log 2))) ≤ cf.d.rcalchi := by
  intro r cf f
  replace ht : taintRunF (fun c => (conf c).dcfg) k (dcInit k c e 0 1) (ops ++ [.eval x]) = false :=
    (called_untainted hs hk hu 1 (le_refl _) c e _ (called_eval ha x)).trans ht
  have hk' := library_debye hk hu
  have hr := library_debye_regular hu
  obtain ⟨h1, h2, -, h4⟩ := fresh_history_partial s hs _ stru _ k hk' hr c e e' ops x ht
  obtain ⟨hset, -⟩ := joint_history k (par_ok hk' hr) _ 1 (le_refl _) (ghost_lawful hs hk' hr) _ (quiet_law hs hk' hr) c e ops x ht
  refine ⟨h1, h2, h4, ?_, fun i j hi hj v hv hq => ?_⟩
  · show ((conf r.h.cfg).d.clo : ℝ) * _ = 0
    have : (conf r.h.cfg).d.clo = 0 := hset.clo
    rw [this, Int.cast_zero, zero_mul]
  · have hfix := (eval_steady hk' hr (dcRun k (dcInit k c e 0 1) ops) x).1
    have h := (reset_range _ cf.d cf.d (fun a b => tails_nonneg cf (stru x) a b) (hu.good _) hfix).1
    have hb := debye_tails_bound cf (hu.pwm _) (stru x) (hu.disp x) i j hi hj v hv cf.d.rmin cf.d.rmax hq
    refine le_trans (add_le_add_right (min_le_min_left _ (add_le_add_right hb _)) _) h

/-- **C91** (partial), output. G(r) as the sine transform of that sum, RDF(r)/r and RDF(r). -/
theorem library_G_partial (s : Sorter) (hs : SortSpec s) (conf : C → DLCfg) (stru : S → RStru) (k : Cls C S) (hk : IsLibraryDebye s conf stru k)
    (hu : UsualDebye conf stru k) (c : C) (e : S) (ops : List (POp C S)) (ha : Called conf k (dcInit k c e 0 1) ops) (x : S)
    (ht : strayed conf k (dcInit k c e 0 1) (ops ++ [.eval x]) = false) :
    let r := dcEval k (dcRun k (dcInit k c e 0 1) ops) x
    let cf := conf r.h.cfg
    let pars := fun c => (conf c).d
    (∀ t (q q' : ℝ), 0 ≤ q → q ≤ q' → |cf.lookup t q'| ≤ |cf.lookup t q|) → 1 / 2 ^ 26 < atomCount (sitesOf (stru x)) → 0 ≤ cf.d.q.prec →
    cf.d.rstep ≤ min cf.d.maxext (cf.d.ripples + cf.tails (stru x) cf.d.rmin cf.d.rmax) →
    (∀ qmin env, 0 ≤ qmin → IsPDF cf.dcfg (stru x) qmin env (getPDF k pars r qmin env)) ∧
      IsPDF cf.dcfg (stru x) 0 (fun _ => 1) (getRDFperR k pars r) ∧ IsPDF cf.dcfg (stru x) 0 (fun r => r) (getRDF k pars r) := by
  replace ht : taintRunF (fun c => (conf c).dcfg) k (dcInit k c e 0 1) (ops ++ [.eval x]) = false :=
    (called_untainted hs hk hu 1 (le_refl _) c e _ (called_eval ha x)).trans ht
  exact G_history_partial s hs _ stru _ k (library_debye hk hu) (library_debye_regular hu) c e ops x ht

/-- **C91** (partial), parallel. A calculator that collects the values of jobs 0 to n-1 after the same history, in any order, has the F(Q), PDF and RDF
of a new calculator, exactly. -/
theorem library_debye_parallel_partial (s : Sorter) (hs : SortSpec s) (conf : C → DLCfg) (stru : S → RStru) (k : Cls C S)
    (hk : IsLibraryDebye s conf stru k) (hu : UsualDebye conf stru k) (jobs : ℕ) (hjobs : 1 ≤ jobs)
    (c : C) (e e' : S) (ops : List (POp C S)) (ha : Called conf k (dcInit k c e 0 jobs) ops) (x : S)
    (ht : strayed conf k (dcInit k c e 0 jobs) (ops ++ [.eval x]) = false) (parts : List (List ℝ))
    (hp : parts.Perm ((List.range jobs).map fun j : ℕ => (dcEval k (dcRun k (dcInit k c e j jobs) ops) x).d.value)) (m0 : DC C S)
    (hm : m0.h.cfg = (dcEval k (dcRun k (dcInit k c e 0 jobs) ops) x).h.cfg) :
    let f := dcEval k (dcInit k m0.h.cfg e' 0 1) x
    let pars := fun c => (conf c).d
    ∃ r, mergeParts k m0 x jobs parts = some r ∧ r.h.cfg = m0.h.cfg ∧ f.h.cfg = m0.h.cfg ∧ getF k r = getF k f ∧
      (∀ qmin env, getPDF k pars r qmin env = getPDF k pars f qmin env) ∧
      getRDFperR k pars r = getRDFperR k pars f ∧ getRDF k pars r = getRDF k pars f := by
  intro f pars
  rw [← called_untainted hs hk hu jobs hjobs c e _ (called_eval ha x)] at ht
  obtain ⟨r, r1, -, -, r4⟩ := F_parallel_partial s hs _ stru _ k (library_debye hk hu) (library_debye_regular hu) jobs hjobs c e e' ops x ht parts hp m0 hm
  obtain ⟨r', s1, s2, s3, s4, s5, s6⟩ :=
    G_parallel_partial s hs _ stru _ k (library_debye hk hu) (library_debye_regular hu) jobs hjobs c e e' ops x ht parts hp m0 hm pars
  rw [r1] at s1
  cases s1
  exact ⟨r, r1, s2, s3, r4, s4, s5, s6⟩

/-! ### A concrete case -/

/-- The specified F(Q) of two carbon atoms at the distance `d` with displacements `u` is exp(-u Q²) sin(Q d) / d. -/
theorem two_atoms_F (c : DLCfg) (hm : c.mask = fun _ _ _ _ => true) (hw : c.pwm = .debyeWaller) (d u : ℚ) (hd : 1 < d) (hu : 0 ≤ u)
    (q : ℝ) (hf : c.lookup "C" q ≠ 0) (hlo : c.d.rcalclo ≤ d) (hhi : (d : ℝ) ≤ c.d.rcalchi) :
    let x := PDFHist.exPair d u
    let a := sitesOf x
    struSum (geom x) c.d.rcalclo c.d.rcalchi (siteFactor c.lookup a q) (fun i j => pairWidth c.pwm x.atoms[i]? x.atoms[j]?)
      (fun i j => c.mask i j x.atoms[i]? x.atoms[j]?) q / (atomCount a * meanFactor c.lookup a q ^ 2) =
      Real.exp (-(u * q ^ 2)) * (Real.sin (q * d) / d) := by
  intro x a
  have hd1 : (1 : ℝ) < (d : ℝ) := by exact_mod_cast hd
  have hu0 : (0 : ℝ) ≤ (u : ℝ) := by exact_mod_cast hu
  have hn : ∀ v : V3, v.y = 0 → v.z = 0 → V3.norm v = |v.x| := by
    intro v h1 h2
    unfold V3.norm V3.dot
    rw [h1, h2]
    simp [Real.sqrt_mul_self_eq_abs]
  have e1 : V3.norm (V3.sub (posOf x.atoms 1) (posOf x.atoms 0)) = d := by
    rw [hn _ (by simp [x, PDFHist.exPair, posOf, atomPos, V3.sub]) (by simp [x, PDFHist.exPair, posOf, atomPos, V3.sub])]
    show |(d : ℝ) - ((0 : ℚ) : ℝ)| = d
    rw [Rat.cast_zero, sub_zero, abs_of_pos (by linarith)]
  have e2 : V3.norm (V3.sub (posOf x.atoms 0) (posOf x.atoms 1)) = d := by
    rw [hn _ (by simp [x, PDFHist.exPair, posOf, atomPos, V3.sub]) (by simp [x, PDFHist.exPair, posOf, atomPos, V3.sub])]
    show |((0 : ℚ) : ℝ) - (d : ℝ)| = d
    rw [Rat.cast_zero, zero_sub, abs_neg, abs_of_pos (by linarith)]
  have e0 : ∀ i, V3.norm (V3.sub (posOf x.atoms i) (posOf x.atoms i)) = 0 := by
    intro i
    rw [hn _ (by simp [V3.sub]) (by simp [V3.sub])]
    simp [V3.sub]
  have hsites : a = [⟨"C", 1, 1⟩, ⟨"C", 1, 1⟩] := by
    simp [a, x, sitesOf, PDFHist.exPair, geom, Geometry.mult]
  have hat : atomCount a = 2 := by
    rw [hsites]; norm_num [atomCount]
  have hav : meanFactor c.lookup a q = c.lookup "C" q := by
    unfold meanFactor
    rw [hat, hsites]
    simp
  have hW : ∀ i j : ℕ, i < 2 → j < 2 → ∀ v, pairWidth c.pwm x.atoms[i]? x.atoms[j]? v = Real.sqrt (8 * Real.log 2) * Real.sqrt (2 * u) := by
    intro i j hi hj v
    rw [hw]
    have ha : ∀ i < 2, ∃ a : Atom, x.atoms[i]? = some a ∧ a.anisotropy = false ∧ a.u.u1 = u := by
      intro i hi
      interval_cases i
      · exact ⟨_, rfl, rfl, rfl⟩
      · exact ⟨_, rfl, rfl, rfl⟩
    obtain ⟨a, ha1, ha2, ha3⟩ := ha i hi
    obtain ⟨b, hb1, hb2, hb3⟩ := ha j hj
    rw [ha1, hb1]
    show Real.sqrt (8 * Real.log 2) * Real.sqrt (along a v + along b v) = _
    unfold along
    rw [if_neg (by rw [ha2]; decide), if_neg (by rw [hb2]; decide), ha3, hb3, two_mul]
  have hfac : ∀ i < 2, siteFactor c.lookup a q i = c.lookup "C" q := by
    intro i hi
    rw [hsites]
    interval_cases i <;> simp [siteFactor]
  have hlog : 0 < Real.log 2 := Real.log_pos (by norm_num)
  have hsig : (Real.sqrt (8 * Real.log 2) * Real.sqrt (2 * u) / (2 * Real.sqrt (2 * Real.log 2))) ^ 2 = 2 * u := by
    rw [div_pow, mul_pow, mul_pow, Real.sq_sqrt (by positivity), Real.sq_sqrt (by positivity), Real.sq_sqrt (by positivity)]
    field_simp
    ring
  have hwave : ∀ i j : ℕ, i < 2 → j < 2 → ∀ v, V3.norm v = d → Geo.cut c.d.rcalclo c.d.rcalchi
      (fun v => wave (pairWidth c.pwm x.atoms[i]? x.atoms[j]? v) q v) v = Real.exp (-(u * q ^ 2)) * (Real.sin (q * d) / d) := by
    intro i j hi hj v hv
    unfold Geo.cut
    rw [hv, if_pos ⟨hlo, hhi, by linarith [show (1 : ℝ) / 2 ^ 26 < 1 by norm_num]⟩]
    unfold wave
    beta_reduce
    rw [hW i j hi hj, hsig, hv]
    congr 3
    ring
  have hcut0 : ∀ (F : V3 → ℝ) v, V3.norm v = 0 → Geo.cut c.d.rcalclo c.d.rcalchi F v = 0 := by
    intro F v hv
    unfold Geo.cut
    rw [hv, if_neg (fun h => absurd h.2.2 (by norm_num))]
  have hsum : ∀ i j : ℕ, i < 2 → j < 2 → ∀ F : V3 → ℝ, (geom x).sum i j F =
      F (V3.sub (posOf x.atoms j) (posOf x.atoms i)) := fun _ _ _ _ _ => rfl
  have hmask : ∀ i j a b, c.mask i j a b = true := fun i j a b => by rw [hm]
  have hmult : ∀ i, (geom x).mult i = 1 := fun _ => rfl
  unfold struSum
  rw [hat, hav]
  show (∑ i ∈ Finset.range 2, ∑ j ∈ Finset.range 2, _) / _ = _
  simp only [Finset.sum_range_succ, Finset.sum_range_zero, zero_add, hmask, if_true, hmult]
  rw [hsum 0 0 (by norm_num) (by norm_num), hsum 0 1 (by norm_num) (by norm_num), hsum 1 0 (by norm_num) (by norm_num), hsum 1 1 (by norm_num) (by norm_num),
    hcut0 _ _ (e0 0), hcut0 _ _ (e0 1), hwave 0 1 (by norm_num) (by norm_num) _ e1, hwave 1 0 (by norm_num) (by norm_num) _ e2,
    hfac 0 (by norm_num), hfac 1 (by norm_num)]
  push_cast
  field_simp
  ring

/-! ### The hypotheses can be met -/

/-- There is such a calculator for all structures and all configurations for which `resetValue` does not throw. -/
theorem library_debye_exists (s : Sorter) (conf : C → DLCfg) (stru : S → RStru)
    (pm : C → Bool) (reset : S → C → C × Bool) (hinj : ∀ x c, conf (reset x c).1 = conf c → (reset x c).1 = c)
    (hreset : ∀ x c, ∃ d', dstep ((conf c).tails (stru x)) (conf c).d .reset = .ok d' ∧ conf (reset x c).1 = { conf c with d := d' } ∧
      (reset x c).2 = decide (d'.clicks ≠ (conf c).d.clicks)) :
    ∃ k : Cls C S, IsLibraryDebye s conf stru k ∧ k.hasPairMask = pm ∧ k.reset = reset := by
  classical
  let G : C → S → Gen BondGen.Bond := fun c x => (gen_exists (geom (stru x)) (conf c).d.rcalclo (conf c).d.rcalchi).choose
  refine ⟨{ hasPairMask := pm
            rule := chopOuterRule
            count := fun x => (stru x).atoms.length
            use := fun c x i j => (conf c).mask i j (stru x).atoms[i]? (stru x).atoms[j]?
            reset := reset
            custom := reset
            diff := fun x y => KindDiff.diff s false (stru x) (stru y)
            par := fun c => (conf c).d.q
            cache := fun c x => cacheOf (conf c).d.q (sfPDF (conf c).lookup (sitesOf (stru x))) (sitesOf (stru x))
            avg := fun c x => sfAverage (conf c).d.q (cacheOf (conf c).d.q (sfPDF (conf c).lookup (sitesOf (stru x))) (sitesOf (stru x)))
              (sitesOf (stru x))
            totocc := fun x => totalOccupancy (sitesOf (stru x))
            gen := fun c x i sel => if i < (geom (stru x)).cnt ∧ ∀ j ∈ sel, j < (geom (stru x)).cnt then
                readGen (geom (stru x)).mult ((conf c).bondWidth (stru x)) (G c x) i sel else
              sel.flatMap fun j => ((vecs (geom (stru x)) (conf c).d.rcalclo (conf c).d.rcalchi i j).map
                fun v => (⟨V3.norm v, (conf c).dcfg.W (stru x) i j v, (geom (stru x)).mult i⟩ : Bond)).map fun b => (j, b) }, ?_, rfl, rfl⟩
  refine ⟨hinj, fun _ => rfl, fun _ _ => rfl, fun _ _ _ _ => rfl, fun _ => rfl, fun _ _ => rfl, fun _ _ => rfl, fun _ => rfl, rfl,
    hreset, fun c x _ => ?_, fun c x i sel _ h => ?_⟩
  · exact ⟨G c x, (gen_exists (geom (stru x)) _ _).choose_spec, fun i sel h1 h2 => if_pos ⟨h1, h2⟩⟩
  · dsimp only
    rw [if_neg h]

/-- Debye-Waller widths, and factors 1 or 2. -/
noncomputable def exDebye (c : {d : D // ExRange d} × Bool) : DLCfg :=
  ⟨c.1.1, .debyeWaller, fun _ _ => if c.2 then 1 else 2, fun _ _ _ _ => true⟩

/-- The structures of any one class, with sites of equal multiplicity: a history where the factors are changed, then Qmin, which clicks no ticker. -/
example (cls : Kind Lat Sym → Prop) (hcls : ∀ a b, cls a → cls b → SameClass a b) (s : Sorter) :
    let St := {x : RStru // cls x.kind ∧ (geom x).Ok ∧ UniformOccupancy (sitesOf x) ∧ Displaced x ∧
      ∀ i j, i < (geom x).cnt → j < (geom x).cnt → (geom x).mult i = (geom x).mult j}
    ∃ k : Cls ({d : D // ExRange d} × Bool) St, IsLibraryDebye s exDebye (fun x => x.1) k ∧ UsualDebye exDebye (fun x => x.1) k ∧
      ∀ x y (jobs : ℕ) c, let ops : List (POp _ St) := [.eval x, .configure (fun c => (c.1, !c.2)) true false, .eval y,
          .configure (fun c => (exQmin 1 zero_le_one c.1, c.2)) false false]
        Called exDebye k (dcInit k c x 0 jobs) ops ∧ strayed exDebye k (dcInit k c x 0 jobs) (ops ++ [.eval x]) = false := by
  intro St
  have ht : ∀ c (x : St) a b, 0 ≤ (exDebye c).tails x.1 a b := fun c x a b => tails_nonneg _ _ _ _
  obtain ⟨k, hk, -, -⟩ := library_debye_exists s exDebye (fun x : St => x.1) (fun _ => false)
    (fun x c => ((⟨(exRange_reset ((exDebye c).tails x.1) (ht c x) c.1.1 c.1.2).choose,
      (exRange_reset ((exDebye c).tails x.1) (ht c x) c.1.1 c.1.2).choose_spec.2⟩, c.2),
      decide ((exRange_reset ((exDebye c).tails x.1) (ht c x) c.1.1 c.1.2).choose.clicks ≠ c.1.1.clicks)))
    (fun x c h => Prod.ext (Subtype.ext (congrArg DLCfg.d h)) rfl)
    (fun x c => ⟨_, (exRange_reset ((exDebye c).tails x.1) (ht c x) c.1.1 c.1.2).choose_spec.1, rfl, rfl⟩)
  refine ⟨k, hk, ⟨fun x y _ => hcls _ _ x.2.1 y.2.1, fun x => x.2.2.1, fun x => x.2.2.2.1, fun c => c.1.2.good, fun _ => trivial,
    fun x => x.2.2.2.2.1, fun c x => Or.inr x.2.2.2.2.2, fun _ _ _ _ _ => rfl, fun _ _ _ _ _ _ _ _ => rfl, fun c => c.1.2.optimum, fun c => ?_,
    fun c => c.1.2.wide⟩, fun x y jobs c => ⟨?_, ?_⟩⟩
  · show c.1.1.rmin ≤ _ ∧ c.1.1.rmin ≤ _
    rw [c.1.2.rmin]
    exact ⟨c.1.2.good.maxext, ripples_nonneg _⟩
  · have h1 : ∀ c, DApi (exDebye c) (exDebye (c.1, !c.2)) true := fun c => DApi.factors (exDebye c) (fun _ _ => if (!c.2) = true then 1 else 2)
    have h2 : ∀ c, DApi (exDebye c) (exDebye (exQmin 1 zero_le_one c.1, c.2)) false := by
      intro c
      have hd : dstep ((exDebye c).tails x.1) (exDebye c).d (.setQmin 1) = .ok { c.1.1 with qminpdf := 1 } := by
        have hg : c.1.1.q.qmin = 0 := c.1.2.good.sumfrom
        have hn : throwsNegative 1 = false := by
          unfold throwsNegative
          rw [decide_eq_false]
          norm_num
        have hn0 : throwsNegative 0 = false := by
          unfold throwsNegative
          rw [decide_eq_false]
          norm_num
        simp only [dstep, baseSetQmin, hn, hn0]
        rw [if_neg (by simp), if_neg (by simp)]
        show Except.ok _ = _
        have e : (exDebye c).d = c.1.1 := rfl
        rw [e]
        simp only [hg, D.clickIf]
        rcases hq : c.1.1 with ⟨⟨a1, a2, a3, a4⟩, b1, b2, b3, b4, b5, b6, b7, b8, b9, b10⟩
        rw [hq] at hg
        have hg : a1 = 0 := hg
        subst hg
        simp
      have h := DApi.set (exDebye c) x.1 (.setQmin 1) (by simp)
      rw [hd] at h
      have e : ((after (.ok { c.1.1 with qminpdf := 1 } : Except D D)).clicks != (exDebye c).d.clicks) = false := by
        show (c.1.1.clicks != c.1.1.clicks) = false
        simp
      rw [e] at h
      exact h
    intro pre f cl r post e
    rcases pre with _ | ⟨o, _ | ⟨o', _ | ⟨o'', _ | ⟨o3, _ | ⟨o4, pre⟩⟩⟩⟩⟩
    · simp at e
    · simp only [List.cons_append, List.nil_append, List.cons.injEq, POp.configure.injEq] at e
      obtain ⟨-, ⟨rfl, rfl, rfl⟩, -⟩ := e
      exact h1 _
    · simp at e
    · simp only [List.cons_append, List.nil_append, List.cons.injEq, POp.configure.injEq] at e
      obtain ⟨-, -, -, ⟨rfl, rfl, rfl⟩, -⟩ := e
      exact h2 _
    · simp at e
    · simp at e
  · have ha : ∀ c : {d : D // ExRange d} × Bool, (exDebye (exQmin 1 zero_le_one c.1, c.2)).d.rstep = (exDebye c).d.rstep := fun c => rfl
    simp [strayed, taintRun, taintOn, POp.op, ha]

end Verif.DebyeHist
